import Verif.Matrix.PropsFilter
import Mathlib.Algebra.BigOperators.Group.List.Basic
import Mathlib.Data.List.Induction

/-!
# Properties of matrices: C27 (token contexts), C53 (sums), C54 (drop)
-/

namespace Verif.Matrix
open Verif.Py
set_option linter.unusedSectionVars false

variable {κ ν : Type} [LinearOrder κ]

/-! ### C27 -/

/-- Specification: the collocate `c` occurs in the recorded context of the token at signed distance `d`; the last
left collocate is at -1, the first right collocate at 1. -/
def OccursAt (t : Tok κ) (c : κ) (d : Int) : Prop :=
  (∃ i : Nat, t.left[i]? = some c ∧ d = (i : Int) - (t.left.length : Int)) ∨
  (∃ i : Nat, t.right[i]? = some c ∧ d = (i : Int) + 1)

theorem ofPairs_concat (ps : List (κ × ν)) (p : κ × ν) :
    Dict.ofPairs (ps ++ [p]) = Dict.set (Dict.ofPairs ps) p.1 p.2 := by
  unfold Dict.ofPairs; rw [List.foldl_append]; rfl

/-- A dict built from a list with increasing labels keeps the label of the last occurrence. -/
theorem posDict (l : List κ) (f : Nat → Int) (hf : ∀ i j, i ≤ j → f i ≤ f j) (c : κ) :
    ((Dict.ofPairs (l.zipIdx.map (fun p => (p.1, f p.2)))).get? c = none ↔ c ∉ l) ∧
    ∀ d, (Dict.ofPairs (l.zipIdx.map (fun p => (p.1, f p.2)))).get? c = some d →
      (∃ i : Nat, l[i]? = some c ∧ d = f i) ∧ ∀ i : Nat, l[i]? = some c → f i ≤ d := by
  induction l using List.reverseRecOn with
  | nil => exact ⟨by simp [Dict.ofPairs], by intro d h; simp [Dict.ofPairs] at h⟩
  | append_singleton l x ih =>
    rw [List.zipIdx_append, List.map_append]
    simp only [List.zipIdx_singleton, List.map_cons, List.map_nil, Nat.zero_add]
    rw [ofPairs_concat, Dict.get?_set]
    simp only
    by_cases h : x = c
    · subst h
      simp only [if_true, reduceCtorEq, false_iff, Option.some.injEq]
      refine ⟨by simp, ?_⟩
      rintro d rfl
      refine ⟨⟨l.length, by simp, rfl⟩, ?_⟩
      intro i hi
      have := lt_of_getElem? hi
      simp only [List.length_append, List.length_singleton] at this
      exact hf _ _ (by omega)
    · simp only [if_neg h]
      refine ⟨by rw [ih.1]; simp [Ne.symm h], ?_⟩
      intro d hd
      obtain ⟨⟨i, hi, hd'⟩, hmax⟩ := ih.2 d hd
      refine ⟨⟨i, ?_, hd'⟩, ?_⟩
      · rw [List.getElem?_append_left (lt_of_getElem? hi)]; exact hi
      · intro j hj
        by_cases hjl : j < l.length
        · rw [List.getElem?_append_left hjl] at hj; exact hmax j hj
        · have hlt := lt_of_getElem? hj
          simp only [List.length_append, List.length_singleton] at hlt
          have : j = l.length := by omega
          subst this
          simp at hj
          exact absurd hj h

theorem WF_tokRow (t : Tok κ) : Dict.WF (tokRow t) := Dict.WF_update (Dict.WF_ofPairs _) _

/-- The dict of a token: absent iff the collocate does not occur, else its greatest signed distance. -/
theorem tokRow_spec (t : Tok κ) (c : κ) :
    ((tokRow t).get? c = none ↔ ∀ d, ¬ OccursAt t c d) ∧
    ∀ d, (tokRow t).get? c = some d → OccursAt t c d ∧ ∀ d', OccursAt t c d' → d' ≤ d := by
  obtain ⟨l1, l2⟩ := posDict t.left (fun i => (i : Int) - (t.left.length : Int)) (by intro i j h; omega) c
  obtain ⟨r1, r2⟩ := posDict t.right (fun i => (i : Int) + 1) (by intro i j h; omega) c
  unfold tokRow
  rw [Dict.get?_update (Dict.WF_ofPairs _)]
  cases hr : (Dict.ofPairs (t.right.zipIdx.map (fun p => (p.1, (p.2 : Int) + 1)))).get? c with
  | some d =>
    obtain ⟨⟨i, hi, hd⟩, hmax⟩ := r2 d hr
    refine ⟨by simp only [Option.some_or, reduceCtorEq, false_iff, not_forall, not_not]; exact ⟨d, Or.inr ⟨i, hi, hd⟩⟩, ?_⟩
    intro d' hd'
    simp only [Option.some_or, Option.some.injEq] at hd'
    subst hd'
    refine ⟨Or.inr ⟨i, hi, hd⟩, ?_⟩
    rintro d' (⟨j, hj, rfl⟩ | ⟨j, hj, rfl⟩)
    · have := lt_of_getElem? hj
      omega
    · exact hmax j hj
  | none =>
    rw [Option.none_or]
    have hnr := r1.1 hr
    have hno : ∀ i : Nat, t.right[i]? ≠ some c := fun i hi => hnr (List.mem_of_getElem? hi)
    refine ⟨?_, ?_⟩
    · rw [l1]
      constructor
      · rintro h d (⟨j, hj, _⟩ | ⟨j, hj, _⟩)
        · exact h (List.mem_of_getElem? hj)
        · exact hno j hj
      · intro h hm
        obtain ⟨i, hi⟩ := getElem?_of_mem' hm
        exact h _ (Or.inl ⟨i, hi, rfl⟩)
    · intro d hd
      obtain ⟨⟨i, hi, hd'⟩, hmax⟩ := l2 d hd
      refine ⟨Or.inl ⟨i, hi, hd'⟩, ?_⟩
      rintro d' (⟨j, hj, rfl⟩ | ⟨j, hj, rfl⟩)
      · exact hmax j hj
      · exact absurd hj (hno j)

/-- **C27** except for "nearest".  For tokens with distinct names, at least one of them with a collocate, and whatever
order the collocates are listed in: the matrix has one row per token; the entry of a token and a collocate is absent
iff the collocate does not occur in that token's context, and otherwise it is the signed distance of an occurrence,
namely the greatest one: the farthest on the right if there is one on the right, else the nearest on the left. -/
theorem C27_positions_partial {toks : List (Tok κ)} (hnd : (toks.map Tok.name).Nodup) {order : List κ → List κ}
    (horder : ∀ l, (order l).Perm l) (hne : ∃ t ∈ toks, t.left ≠ [] ∨ t.right ≠ []) :
    ∃ m, nodesToMatrix toks order = .ok m ∧ Valid m ∧ m.rows = toks.map Tok.name ∧
      ∀ t ∈ toks, ∀ c, (storedEntry m t.name c = none ↔ ∀ d, ¬ OccursAt t c d) ∧
        ∀ d, storedEntry m t.name c = some d → OccursAt t c d ∧ ∀ d', OccursAt t c d' → d' ≤ d := by
  have hwf : Dict.WF (toks.map (fun t => (t.name, tokRow t))) := by
    unfold Dict.WF Dict.keys; rw [List.map_map]; exact hnd
  have hd : Dict.ofPairs (toks.map (fun t => (t.name, tokRow t))) = toks.map (fun t => (t.name, tokRow t)) :=
    Dict.ofPairs_of_WF _ hwf
  have hkeys : Dict.keys (toks.map (fun t => (t.name, tokRow t))) = toks.map Tok.name := by
    unfold Dict.keys; rw [List.map_map]; rfl
  have hget : ∀ t ∈ toks, Dict.get? (toks.map (fun t => (t.name, tokRow t))) t.name = some (tokRow t) := by
    intro t ht
    exact Dict.get?_of_mem hwf (List.mem_map.2 ⟨t, ht, rfl⟩)
  have hat : ∀ t ∈ toks, ∀ c, at2 (toks.map (fun t => (t.name, tokRow t))) t.name c = (tokRow t).get? c := by
    intro t ht c; unfold at2; rw [hget t ht]; rfl
  have hat' : ∀ r c v, at2 (toks.map (fun t => (t.name, tokRow t))) r c = some v →
      ∃ t ∈ toks, t.name = r ∧ (tokRow t).get? c = some v := by
    intro r c v h
    unfold at2 at h
    cases hr : Dict.get? (toks.map (fun t => (t.name, tokRow t))) r with
    | none => rw [hr] at h; cases h
    | some row =>
      rw [hr] at h
      have := Dict.mem_of_get? hr
      obtain ⟨t, ht, he⟩ := List.mem_map.1 this
      cases he
      exact ⟨t, ht, rfl, h⟩
  have hW2 : WF2 (toks.map (fun t => (t.name, tokRow t))) := by
    refine ⟨hwf, ?_⟩
    intro p hp
    obtain ⟨t, _, rfl⟩ := List.mem_map.1 hp
    exact WF_tokRow t
  have hmemc : ∀ c, c ∈ order (toks.flatMap (fun t => (tokRow t).keys)).dedup ↔ ∃ t ∈ toks, c ∈ (tokRow t).keys := by
    intro c
    rw [(horder _).mem_iff, List.mem_dedup, List.mem_flatMap]
  have hcnd : (order (toks.flatMap (fun t => (tokRow t).keys)).dedup).Nodup :=
    (horder _).nodup_iff.2 (List.nodup_dedup _)
  have hex : ∃ r c v, at2 (toks.map (fun t => (t.name, tokRow t))) r c = some v := by
    obtain ⟨t, ht, h⟩ := hne
    have : ∃ c d, OccursAt t c d := by
      rcases h with h | h
      · obtain ⟨c, hc⟩ := List.exists_mem_of_ne_nil _ h
        obtain ⟨i, hi⟩ := getElem?_of_mem' hc
        exact ⟨c, _, Or.inl ⟨i, hi, rfl⟩⟩
      · obtain ⟨c, hc⟩ := List.exists_mem_of_ne_nil _ h
        obtain ⟨i, hi⟩ := getElem?_of_mem' hc
        exact ⟨c, _, Or.inr ⟨i, hi, rfl⟩⟩
    obtain ⟨c, d, hcd⟩ := this
    cases hg : (tokRow t).get? c with
    | none => exact absurd hcd ((tokRow_spec t c).1.1 hg d)
    | some v => exact ⟨t.name, c, v, by rw [hat t ht, hg]⟩
  obtain ⟨s, h1, h2, h3, h4, h5, h6⟩ := dictToSp_spec (rows := toks.map Tok.name) hW2 (uniform_int _) hnd hcnd (by
    intro r c v h
    obtain ⟨t, ht, rfl, hv⟩ := hat' r c v h
    refine ⟨List.mem_map.2 ⟨t, ht, rfl⟩, (hmemc c).2 ⟨t, ht, ?_⟩⟩
    rw [← Dict.get?_isSome_iff, hv]; rfl) hex
  refine ⟨⟨.sp s, toks.map Tok.name, order (toks.flatMap (fun t => (tokRow t).keys)).dedup⟩, ?_,
    ⟨h3, h4, hnd, hcnd, ?_⟩, rfl, ?_⟩
  · unfold nodesToMatrix
    simp only [hd, hkeys, h1, bind, Except.bind]
    exact mkMtx_sp h3 h4
  · intro s' hs'; cases hs'; exact h5
  · intro t ht c
    have hst : storedEntry (⟨.sp s, toks.map Tok.name, order (toks.flatMap (fun t => (tokRow t).keys)).dedup⟩ :
        Mtx κ Int) t.name c = (tokRow t).get? c := by
      obtain ⟨i, hi⟩ := getElem?_of_mem' (List.mem_map.2 ⟨t, ht, rfl⟩ : t.name ∈ toks.map Tok.name)
      by_cases hc : c ∈ order (toks.flatMap (fun t => (tokRow t).keys)).dedup
      · obtain ⟨j, hj⟩ := getElem?_of_mem' hc
        rw [storedEntry_of (m := ⟨.sp s, toks.map Tok.name, order (toks.flatMap (fun t => (tokRow t).keys)).dedup⟩)
          hnd hcnd rfl hi hj, h6 i j _ _ hi hj, hat t ht]
      · have e1 : (tokRow t).get? c = none := by
          rw [Dict.get?_eq_none_iff]; intro hm; exact hc ((hmemc c).2 ⟨t, ht, hm⟩)
        rw [e1]
        unfold storedEntry
        simp only [idxOf?_none hc]
        cases List.idxOf? t.name (toks.map Tok.name) <;> rfl
    rw [hst]
    exact tokRow_spec t c

/-- If every collocate occurs at most once in the contexts of a token, the entry is the position of the only (hence
nearest) occurrence. -/
theorem C27_unique_partial {toks : List (Tok κ)} (hnd : (toks.map Tok.name).Nodup) {order : List κ → List κ}
    (horder : ∀ l, (order l).Perm l) (hne : ∃ t ∈ toks, t.left ≠ [] ∨ t.right ≠ []) :
    ∃ m, nodesToMatrix toks order = .ok m ∧
      ∀ t ∈ toks, (t.left ++ t.right).Nodup → ∀ c d, storedEntry m t.name c = some d ↔ OccursAt t c d := by
  obtain ⟨m, h1, _, _, h2⟩ := C27_positions_partial hnd horder hne
  refine ⟨m, h1, ?_⟩
  intro t ht hn c d
  obtain ⟨e1, e2⟩ := h2 t ht c
  refine ⟨fun h => (e2 d h).1, ?_⟩
  intro ho
  cases hs : storedEntry m t.name c with
  | none => exact absurd ho (e1.1 hs d)
  | some d' =>
    obtain ⟨ho', _⟩ := e2 d' hs
    have hidx : ∀ d, OccursAt t c d → ∃ i : Nat, (t.left ++ t.right)[i]? = some c ∧
        d = if i < t.left.length then (i : Int) - t.left.length else (i : Int) - t.left.length + 1 := by
      rintro d (⟨i, hi, rfl⟩ | ⟨i, hi, rfl⟩)
      · exact ⟨i, by rw [List.getElem?_append_left (lt_of_getElem? hi)]; exact hi, by rw [if_pos (lt_of_getElem? hi)]⟩
      · refine ⟨t.left.length + i, by rw [List.getElem?_append_right (by omega)]; simpa using hi, ?_⟩
        rw [if_neg (by omega)]; push_cast; ring
    obtain ⟨i, hi, rfl⟩ := hidx d ho
    obtain ⟨j, hj, rfl⟩ := hidx d' ho'
    rw [getElem?_inj_of_nodup hn hi hj]

/-- **C27** is false: with the collocate directly to the left and again two to the right, the entry is 2, not -1. -/
theorem C27_false_nearest : ∃ (t : Tok Nat) (m : Mtx Nat Int), nodesToMatrix [t] id = .ok m ∧ OccursAt t 5 (-1) ∧
    storedEntry m t.name 5 = some 2 :=
  ⟨⟨1, [5], [6, 5]⟩, ⟨.sp ⟨.csr, 1, 2, [((0, 0), 2), ((0, 1), 1)]⟩, [1], [5, 6]⟩, by rfl, Or.inl ⟨0, rfl, rfl⟩, by decide⟩

/-- With no collocate at all the call raises `ValueError`. -/
theorem C27_empty (toks : List (Tok κ)) (hnd : (toks.map Tok.name).Nodup) (order : List κ → List κ)
    (h : ∀ t ∈ toks, t.left = [] ∧ t.right = []) : nodesToMatrix toks order = .error .valueError := by
  have hwf : Dict.WF (toks.map (fun t => (t.name, tokRow t))) := by
    unfold Dict.WF Dict.keys; rw [List.map_map]; exact hnd
  unfold nodesToMatrix
  simp only
  rw [Dict.ofPairs_of_WF _ hwf, C21_empty (d := toks.map (fun t => (t.name, tokRow t)))]
  · rfl
  · refine ⟨hwf, ?_⟩
    intro p hp
    obtain ⟨t, _, rfl⟩ := List.mem_map.1 hp
    exact WF_tokRow t
  · intro r c
    unfold at2
    cases hr : Dict.get? (toks.map (fun t => (t.name, tokRow t))) r with
    | none => rfl
    | some row =>
      obtain ⟨t, ht, he⟩ := List.mem_map.1 (Dict.mem_of_get? hr)
      cases he
      obtain ⟨e1, e2⟩ := h t ht
      simp [tokRow, e1, e2, Dict.ofPairs, Dict.update]

example : (([⟨1, [5, 7, 5], [6]⟩, ⟨2, [], [5, 5]⟩] : List (Tok Nat)).map Tok.name).Nodup ∧
    (∃ t ∈ ([⟨1, [5, 7, 5], [6]⟩, ⟨2, [], [5, 5]⟩] : List (Tok Nat)), t.left ≠ [] ∨ t.right ≠ []) :=
  ⟨by decide, ⟨1, [5, 7, 5], [6]⟩, by simp, Or.inl (by simp)⟩

/-! ### C53: sums -/

section C53
variable [AddCommMonoid ν]

theorem map_range_names {items : List κ} {β : Type} (f : Nat → β) (g : κ → β)
    (h : ∀ (i : Nat) e, items[i]? = some e → f i = g e) : (List.range items.length).map f = items.map g := by
  apply List.ext_getElem?
  intro i
  rw [List.getElem?_map, List.getElem?_map]
  by_cases hi : i < items.length
  · rw [List.getElem?_range hi, List.getElem?_eq_getElem hi]
    simp [h i _ (List.getElem?_eq_getElem hi)]
  · rw [List.getElem?_eq_none (by simpa using hi), List.getElem?_eq_none (by simpa using hi)]
    rfl

theorem row_sum_names {m : Mtx κ ν} (hm : Valid m) {i : Nat} {r : κ} (hi : m.rows[i]? = some r) :
    ((List.range m.body.nc).map (fun j => m.body.val i j)).sum = (m.cols.map (fun c => entry m r c)).sum := by
  rw [hm.nc, map_range_names (fun j => m.body.val i j) (fun c => entry m r c)
    (fun j c hj => (entry_of hm.rows hm.cols hi hj).symm)]

theorem col_sum_names {m : Mtx κ ν} (hm : Valid m) {j : Nat} {c : κ} (hj : m.cols[j]? = some c) :
    ((List.range m.body.nr).map (fun i => m.body.val i j)).sum = (m.rows.map (fun r => entry m r c)).sum := by
  rw [hm.nr, map_range_names (fun i => m.body.val i j) (fun r => entry m r c)
    (fun i r hi => (entry_of hm.rows hm.cols hi hj).symm)]

theorem zip_map_self (l : List κ) (g : κ → ν) : l.zip (l.map g) = l.map (fun e => (e, g e)) := by
  induction l with
  | nil => rfl
  | cons e l ih => simp [ih]

theorem ofPairs_names {l : List κ} (h : l.Nodup) (g : κ → ν) :
    Dict.ofPairs (l.map (fun e => (e, g e))) = l.map (fun e => (e, g e)) ∧
    ∀ e ∈ l, Dict.get? (l.map (fun e => (e, g e))) e = some (g e) := by
  have hw : Dict.WF (l.map (fun e => (e, g e))) := by
    unfold Dict.WF Dict.keys; rw [List.map_map]
    exact (List.map_id l).symm ▸ h
  exact ⟨Dict.ofPairs_of_WF _ hw, fun e he => Dict.get?_of_mem hw (List.mem_map.2 ⟨e, he, rfl⟩)⟩

/-- **C53** (rows).  With a number of rows other than one, `sum(axis=1)` gives every row name, in order, with the sum of
its entries. -/
theorem C53_row_sums_partial {m : Mtx κ ν} (hm : Valid m) (h1 : m.rows.length ≠ 1) :
    ∃ d, rowSums m = .ok d ∧ Dict.keys d = m.rows ∧
      ∀ r ∈ m.rows, d.get? r = some (m.cols.map (fun c => entry m r c)).sum := by
  have e : (List.range m.body.nr).map (fun i => ((List.range m.body.nc).map (fun j => m.body.val i j)).sum) =
      m.rows.map (fun r => (m.cols.map (fun c => entry m r c)).sum) := by
    rw [hm.nr]
    exact map_range_names _ _ (fun i r hi => row_sum_names hm hi)
  obtain ⟨k1, k2⟩ := ofPairs_names hm.rows (fun r => (m.cols.map (fun c => entry m r c)).sum)
  refine ⟨m.rows.map (fun r => (r, (m.cols.map (fun c => entry m r c)).sum)), ?_, ?_, k2⟩
  · unfold rowSums
    simp only
    rw [if_neg (by rw [hm.nr]; exact h1), e, zip_map_self, k1]
  · unfold Dict.keys; rw [List.map_map]; exact List.map_id _

/-- **C53** (columns). -/
theorem C53_col_sums_partial {m : Mtx κ ν} (hm : Valid m) (h1 : m.cols.length ≠ 1) :
    ∃ d, colSums m = .ok d ∧ Dict.keys d = m.cols ∧
      ∀ c ∈ m.cols, d.get? c = some (m.rows.map (fun r => entry m r c)).sum := by
  have e : (List.range m.body.nc).map (fun j => ((List.range m.body.nr).map (fun i => m.body.val i j)).sum) =
      m.cols.map (fun c => (m.rows.map (fun r => entry m r c)).sum) := by
    rw [hm.nc]
    exact map_range_names _ _ (fun j c hj => col_sum_names hm hj)
  obtain ⟨k1, k2⟩ := ofPairs_names hm.cols (fun c => (m.rows.map (fun r => entry m r c)).sum)
  refine ⟨m.cols.map (fun c => (c, (m.rows.map (fun r => entry m r c)).sum)), ?_, ?_, k2⟩
  · unfold colSums
    simp only
    rw [if_neg (by rw [hm.nc]; exact h1), e, zip_map_self, k1]
  · unfold Dict.keys; rw [List.map_map]; exact List.map_id _

theorem sum_swap {α β : Type} (l : List α) (l' : List β) (f : α → β → ν) :
    (l.map (fun a => (l'.map (fun b => f a b)).sum)).sum = (l'.map (fun b => (l.map (fun a => f a b)).sum)).sum := by
  induction l with
  | nil => simp
  | cons a l ih =>
    simp only [List.map_cons, List.sum_cons, ih]
    rw [← List.sum_map_add]

/-- **C53** (total).  `sum()` is the sum of all named entries, row by row or column by column, hence the sum of the
marginals. -/
theorem C53_total {m : Mtx κ ν} (hm : Valid m) :
    total m = (m.rows.map (fun r => (m.cols.map (fun c => entry m r c)).sum)).sum ∧
    total m = (m.cols.map (fun c => (m.rows.map (fun r => entry m r c)).sum)).sum := by
  have e : total m = (m.rows.map (fun r => (m.cols.map (fun c => entry m r c)).sum)).sum := by
    unfold total
    rw [hm.nr, map_range_names _ _ (fun i r hi => row_sum_names hm hi)]
  exact ⟨e, by rw [e, sum_swap]⟩

/-- **C53** is false for a matrix with a single row (column): the call raises `TypeError`. -/
theorem C53_false_single {m : Mtx κ ν} (hm : Valid m) :
    (m.rows.length = 1 → rowSums m = .error .typeError) ∧ (m.cols.length = 1 → colSums m = .error .typeError) := by
  constructor
  · intro h; unfold rowSums; simp only; rw [if_pos (by rw [hm.nr]; exact h)]
  · intro h; unfold colSums; simp only; rw [if_pos (by rw [hm.nc]; exact h)]

end C53

example : ∃ (m : Mtx Nat Int) (d : Dict Nat Int), Valid m ∧ m.rows.length ≠ 1 ∧ rowSums m = .ok d ∧ d.get? 2 = some 9 ∧
    total m = 12 := by
  refine ⟨⟨.sp ⟨.csr, 2, 2, [((1, 1), 7), ((0, 0), 3), ((1, 0), 2)]⟩, [1, 2], [5, 6]⟩, [(1, 3), (2, 9)],
    ⟨rfl, rfl, by decide, by decide, ?_⟩, by decide, by rfl, by decide, by rfl⟩
  intro s hs; cases hs; exact ⟨by decide, by decide⟩

/-! ### C54: drop -/

section C54
variable [Zero ν] [DecidableEq ν] [AllClose ν]

theorem filterMap_zipIdx_names {items : List κ} (f : Nat → Prop) [DecidablePred f] (g : κ → Prop) [DecidablePred g]
    (h : ∀ (i : Nat) e, items[i]? = some e → (f i ↔ g e)) :
    items.zipIdx.filterMap (fun p => if f p.2 then some p.1 else none) = items.filter (fun e => decide (g e)) := by
  have key : ∀ (l : List κ) (n : Nat), (∀ (i : Nat) e, l[i]? = some e → (f (n + i) ↔ g e)) →
      (l.zipIdx n).filterMap (fun p => if f p.2 then some p.1 else none) = l.filter (fun e => decide (g e)) := by
    intro l
    induction l with
    | nil => intros; rfl
    | cons x l ih =>
      intro n hl
      have h0 := hl 0 x (by simp)
      have ht := ih (n + 1) (fun i e hi => by
        have := hl (i + 1) e (by simpa using hi)
        rwa [show n + 1 + i = n + (i + 1) by omega])
      rw [List.zipIdx_cons, List.filterMap_cons]
      simp only [Nat.add_zero] at h0
      by_cases hf : f n
      · simp only [if_pos hf, List.filter_cons, decide_eq_true (h0.1 hf), if_true, ht]
      · simp only [if_neg hf, List.filter_cons, decide_eq_false (fun hg => hf (h0.2 hg)), ht]
        simp
  exact key items 0 (by simpa using h)

theorem count_names {items : List κ} (f : Nat → Prop) [DecidablePred f] (g : κ → Prop) [DecidablePred g]
    (h : ∀ (i : Nat) e, items[i]? = some e → (f i ↔ g e)) :
    ((List.range items.length).filter (fun i => decide (f i))).length = (items.filter (fun e => decide (g e))).length := by
  rw [← filterMap_zipIdx_names f g h]
  have key : ∀ (l : List κ) (n : Nat), ((l.zipIdx n).filterMap (fun p => if f p.2 then some p.1 else none)).length =
      ((List.range' n l.length).filter (fun i => decide (f i))).length := by
    intro l
    induction l with
    | nil => intros; rfl
    | cons x l ih =>
      intro n
      rw [List.zipIdx_cons, List.filterMap_cons, List.length_cons, List.range'_succ, List.filter_cons]
      by_cases hf : f n
      · simp only [if_pos hf, List.length_cons, ih, decide_eq_true hf, if_true]
      · simp only [if_neg hf, ih, decide_eq_false hf]; simp
  rw [key, List.range_eq_range']

/-- Rows with more than `n` non-zero entries, in the original order. -/
def rowsAbove (m : Mtx κ ν) (n : Int) : List κ :=
  m.rows.filter (fun r => decide (n < ((m.cols.filter (fun c => decide (entry m r c ≠ 0))).length : Int)))

/-- Columns with more than `n` non-zero entries, in the original order. -/
def colsAbove (m : Mtx κ ν) (n : Int) : List κ :=
  m.cols.filter (fun c => decide (n < ((m.rows.filter (fun r => decide (entry m r c ≠ 0))).length : Int)))

/-- **C54** (rows): for a compressed sparse matrix with other than one row, `drop(axis=0, n_nonzero=n)` is the submatrix
of the rows that have more than `n` non-zero entries (`None` if there are none). -/
theorem C54_drop_rows_partial {m : Mtx κ ν} (hm : Valid m) (hc : IsCompressed m) (h1 : m.rows.length ≠ 1) (n : Int) :
    (rowsAbove m n = [] → dropRows m n = .ok none) ∧
    (rowsAbove m n ≠ [] → ∃ u, dropRows m n = .ok (some u) ∧ u.rows = rowsAbove m n ∧ u.cols = m.cols ∧
      ∀ r ∈ u.rows, ∀ c ∈ u.cols, getValue u r c = getValue m r c) := by
  obtain ⟨s, hb, hf⟩ := hc
  have hnr := hm.nr
  have hnc := hm.nc
  rw [hb] at hnr hnc
  simp only [Body.nr, Body.nc] at hnr hnc
  have hrows : m.rows.zipIdx.filterMap (fun p => if (((List.range s.nc).filter (fun j => decide (s.val p.2 j ≠ 0))).length : Int) > n
      then some p.1 else none) = rowsAbove m n := by
    refine filterMap_zipIdx_names
      (fun i => (((List.range s.nc).filter (fun j => decide (s.val i j ≠ 0))).length : Int) > n)
      (fun r => n < ((m.cols.filter (fun c => decide (entry m r c ≠ 0))).length : Int)) ?_
    intro i r hi
    have := count_names (items := m.cols) (fun j => s.val i j ≠ 0) (fun c => entry m r c ≠ 0) (by
      intro j c hj
      rw [entry_of hm.rows hm.cols hi hj, hb]; rfl)
    rw [hnc, this]
  have hdef : dropRows m n = submatrix m (some (rowsAbove m n)) none := by
    unfold dropRows
    rw [hb]
    simp only
    rw [if_neg (by rw [hnr]; exact h1), hrows]
  have hkept : kept m.rows (some (rowsAbove m n)) = rowsAbove m n := by
    unfold kept
    rw [List.filter_eq_self]
    intro e he
    unfold rowsAbove at he
    simpa using (List.mem_filter.1 he).1
  have hsub := C23_submatrix_partial hm ⟨s, hb, hf⟩ (some (rowsAbove m n)) none
  rw [hkept] at hsub
  rw [hdef]
  constructor
  · intro h
    rcases hsub with ⟨_, h'⟩ | ⟨h', _⟩
    · exact h'
    · exact absurd h (h' (by simp))
  · intro h
    rcases hsub with ⟨h', _⟩ | ⟨_, _, u, s', e1, e2, e3, _, _, _, _, _, _, e10⟩
    · rcases h' with ⟨_, h'⟩ | ⟨h', _⟩
      · exact absurd h' h
      · exact absurd rfl h'
    · exact ⟨u, e1, e2, e3, e10⟩

/-- **C54** (columns). -/
theorem C54_drop_cols_partial {m : Mtx κ ν} (hm : Valid m) (hc : IsCompressed m) (h1 : m.cols.length ≠ 1) (n : Int) :
    (colsAbove m n = [] → dropCols m n = .ok none) ∧
    (colsAbove m n ≠ [] → ∃ u, dropCols m n = .ok (some u) ∧ u.rows = m.rows ∧ u.cols = colsAbove m n ∧
      ∀ r ∈ u.rows, ∀ c ∈ u.cols, getValue u r c = getValue m r c) := by
  obtain ⟨s, hb, hf⟩ := hc
  have hnr := hm.nr
  have hnc := hm.nc
  rw [hb] at hnr hnc
  simp only [Body.nr, Body.nc] at hnr hnc
  have hcols : m.cols.zipIdx.filterMap (fun p => if (((List.range s.nr).filter (fun i => decide (s.val i p.2 ≠ 0))).length : Int) > n
      then some p.1 else none) = colsAbove m n := by
    refine filterMap_zipIdx_names
      (fun j => (((List.range s.nr).filter (fun i => decide (s.val i j ≠ 0))).length : Int) > n)
      (fun c => n < ((m.rows.filter (fun r => decide (entry m r c ≠ 0))).length : Int)) ?_
    intro j c hj
    have := count_names (items := m.rows) (fun i => s.val i j ≠ 0) (fun r => entry m r c ≠ 0) (by
      intro i r hi
      rw [entry_of hm.rows hm.cols hi hj, hb]; rfl)
    rw [hnr, this]
  have hdef : dropCols m n = submatrix m none (some (colsAbove m n)) := by
    unfold dropCols
    rw [hb]
    simp only
    rw [if_neg (by rw [hnc]; exact h1), hcols]
  have hkept : kept m.cols (some (colsAbove m n)) = colsAbove m n := by
    unfold kept
    rw [List.filter_eq_self]
    intro e he
    unfold colsAbove at he
    simpa using (List.mem_filter.1 he).1
  have hsub := C23_submatrix_partial hm ⟨s, hb, hf⟩ none (some (colsAbove m n))
  rw [hkept] at hsub
  rw [hdef]
  constructor
  · intro h
    rcases hsub with ⟨_, h'⟩ | ⟨_, h', _⟩
    · exact h'
    · exact absurd h (h' (by simp))
  · intro h
    rcases hsub with ⟨h', _⟩ | ⟨_, _, u, s', e1, e2, e3, _, _, _, _, _, _, e10⟩
    · rcases h' with ⟨h', _⟩ | ⟨_, h'⟩
      · exact absurd rfl h'
      · exact absurd h' h
    · exact ⟨u, e1, e2, e3, e10⟩

/-- **C54** is false for a matrix with a single row: `IndexError`. -/
theorem C54_false_single {m : Mtx κ ν} (hm : Valid m) {s : Sp ν} (hb : m.body = .sp s) (n : Int) :
    (m.rows.length = 1 → dropRows m n = .error .indexError) ∧
    (m.cols.length = 1 → dropCols m n = .error .indexError) := by
  have hnr := hm.nr
  have hnc := hm.nc
  rw [hb] at hnr hnc
  simp only [Body.nr, Body.nc] at hnr hnc
  constructor
  · intro h; unfold dropRows; rw [hb]; simp only; rw [if_pos (by rw [hnr]; exact h)]
  · intro h; unfold dropCols; rw [hb]; simp only; rw [if_pos (by rw [hnc]; exact h)]

end C54

example : ∃ (m u : Mtx Nat Int), Valid m ∧ IsCompressed m ∧ m.rows.length ≠ 1 ∧ dropRows m 1 = .ok (some u) ∧
    rowsAbove m 1 = [2] := by
  refine ⟨⟨.sp ⟨.csr, 2, 2, [((1, 1), 7), ((0, 0), 3), ((1, 0), 2)]⟩, [1, 2], [5, 6]⟩,
    ⟨.sp ⟨.csr, 1, 2, [((0, 1), 7), ((0, 0), 2)]⟩, [2], [5, 6]⟩,
    ⟨rfl, rfl, by decide, by decide, ?_⟩, ⟨_, rfl, by decide⟩, by decide, by rfl, by rfl⟩
  intro s hs; cases hs; exact ⟨by decide, by decide⟩

end Verif.Matrix
