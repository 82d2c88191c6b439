import Verif.Assoc.PropsWeights
import Mathlib.Algebra.BigOperators.Group.List.Basic
import Mathlib.Algebra.Order.BigOperators.Ring.Finset

/-! # Property theorems C35, C36, C61-C63 (token weights, token vectors, cosine similarity) -/

set_option linter.unusedSectionVars false

namespace Verif.Assoc
open Verif.Py Verif.Matrix

variable {κ : Type} [LinearOrder κ]

/-! ### `csr_matrix(dense)` -/

section
variable {ν : Type} [MulZeroOneClass ν] [DecidableEq ν] [AllClose ν]

theorem toCsr_stored (d : Dn ν) (i j : Nat) : (toCsr d).stored i j =
    if i < d.nr ∧ j < d.nc ∧ d.elem i j ≠ 0 then some (d.elem i j) else none := by
  unfold toCsr Sp.stored
  have hq := get?_map_filter ((List.range d.nr).product (List.range d.nc)) (fun p => d.elem p.1 p.2)
    (fun v => decide (v ≠ 0)) (i, j)
  simp only at hq
  rw [hq]
  simp [List.mem_range, and_assoc]

theorem toCsr_val (d : Dn ν) {i j : Nat} (hi : i < d.nr) (hj : j < d.nc) : (toCsr d).val i j = d.elem i j := by
  unfold Sp.val
  rw [toCsr_stored]
  by_cases h : d.elem i j = 0
  · rw [if_neg (fun hc => hc.2.2 h), h]; rfl
  · rw [if_pos ⟨hi, hj, h⟩]; rfl

theorem toCsr_WF (d : Dn ν) : (toCsr d).WF := by
  have hk : Dict.WF (((List.range d.nr).product (List.range d.nc)).map (fun p => (p, d.elem p.1 p.2))) := by
    unfold Dict.WF Dict.keys
    rw [List.map_map]
    have : (Prod.fst ∘ fun p : Nat × Nat => (p, d.elem p.1 p.2)) = id := rfl
    rw [this, List.map_id]
    exact List.nodup_range.product List.nodup_range
  refine ⟨Dict.WF_filter hk _, ?_⟩
  intro p hp
  obtain ⟨e, he, rfl⟩ := List.mem_map.1 hp
  have := (List.mem_filter.1 he).1
  obtain ⟨q, hq, rfl⟩ := List.mem_map.1 this
  have h := List.mem_product.1 hq
  exact ⟨List.mem_range.1 h.1, List.mem_range.1 h.2⟩

/-! ## C35 -/

/-- **C35**: for sparse matrices with the same column items, the weight at a token and a context is the weight of the
token's type and the context if the context occurs with the token (its position is not 0), else 0; a token whose type
has no weights gets a zero row (`entry` is 0 for unknown names).  With `booleanize=False` the weight is multiplied by the
position value instead. -/
theorem C35_weights {tc tw : Mtx κ ν} (htc : Valid tc) (htw : Valid tw) {t w : Sp ν} (ht : tc.body = .sp t)
    (hw : tw.body = .sp w) (hcols : tc.cols = tw.cols) (typeOf : κ → κ) :
    ∃ u u', computeTokenWeights typeOf tc tw = .ok u ∧ computeTokenWeights typeOf tc tw false = .ok u' ∧
      Valid u ∧ Valid u' ∧ IsCsr u ∧ IsCsr u' ∧ u.rows = tc.rows ∧ u.cols = tc.cols ∧ u'.rows = tc.rows ∧ u'.cols = tc.cols ∧
      (∀ tok c, entry u tok c = if entry tc tok c ≠ 0 then entry tw (typeOf tok) c else 0) ∧
      (∀ tok c, entry u' tok c = entry tc tok c * entry tw (typeOf tok) c) := by
  have hnr := htc.nr
  have hnc := htc.nc
  rw [ht] at hnr hnc
  simp only [Body.nr, Body.nc] at hnr hnc
  have key : ∀ b, ∃ u, computeTokenWeights typeOf tc tw b = .ok u ∧ Valid u ∧ IsCsr u ∧ u.rows = tc.rows ∧ u.cols = tc.cols ∧
      ∀ tok ∈ tc.rows, ∀ c ∈ tc.cols, entry u tok c = mask b (entry tc tok c) * entry tw (typeOf tok) c := by
    intro b
    unfold computeTokenWeights
    rw [if_neg (by simp [hcols]), ht, hw]
    simp only
    rw [mkMtx_sp (s := toCsr ⟨t.nr, t.nc, weightElem typeOf b tc.rows tw.rows t w⟩) (rows := tc.rows) (cols := tc.cols) hnr hnc]
    refine ⟨_, rfl, ⟨hnr, hnc, htc.rows, htc.cols, ?_⟩, ⟨_, rfl, rfl⟩, rfl, rfl, ?_⟩
    · intro s hs; cases hs; exact toCsr_WF _
    · intro tok htok c hc
      obtain ⟨i, hi⟩ := getElem?_of_mem' htok
      obtain ⟨j, hj⟩ := getElem?_of_mem' hc
      have hil := lt_of_getElem? hi
      have hjl := lt_of_getElem? hj
      rw [entry_of (m := ⟨.sp (toCsr _), tc.rows, tc.cols⟩) htc.rows htc.cols hi hj, entry_of htc.rows htc.cols hi hj, ht]
      simp only [Body.val]
      rw [toCsr_val _ (by simpa [hnr] using hil) (by simpa [hnc] using hjl)]
      show weightElem typeOf b tc.rows tw.rows t w i j = _
      unfold weightElem
      rw [hi]
      simp only
      by_cases hty : typeOf tok ∈ tw.rows
      · rw [if_pos hty]
        have hidx : tw.rows[tw.rows.idxOf (typeOf tok)]? = some (typeOf tok) := by
          rw [List.getElem?_eq_getElem (List.idxOf_lt_length_iff.2 hty), List.getElem_idxOf]
        rw [entry_of htw.rows htw.cols hidx (hcols ▸ hj), hw]
        rfl
      · rw [if_neg hty, entry_row_absent hty, mul_zero]
  obtain ⟨u, h1, h2, h3, h4, h5, h6⟩ := key true
  obtain ⟨u', k1, k2, k3, k4, k5, k6⟩ := key false
  refine ⟨u, u', h1, k1, h2, k2, h3, k3, h4, h5, k4, k5, ?_, ?_⟩
  · intro tok c
    by_cases hr : tok ∈ tc.rows
    · by_cases hc : c ∈ tc.cols
      · rw [h6 tok hr c hc]
        unfold mask
        by_cases h0 : entry tc tok c = 0 <;> simp [h0]
      · rw [entry_col_absent _ (by rw [h5]; exact hc), entry_col_absent (m := tc) _ hc]; simp
    · rw [entry_row_absent (by rw [h4]; exact hr), entry_row_absent (m := tc) hr]; simp
  · intro tok c
    by_cases hr : tok ∈ tc.rows
    · by_cases hc : c ∈ tc.cols
      · rw [k6 tok hr c hc]; rfl
      · rw [entry_col_absent _ (by rw [k5]; exact hc), entry_col_absent (m := tc) _ hc, zero_mul]
    · rw [entry_row_absent (by rw [k4]; exact hr), entry_row_absent (m := tc) hr, zero_mul]

/-- **C35**: the order of the rows of the weight matrix does not matter. -/
theorem C35_row_order {tc tw tw' : Mtx κ ν} (htc : Valid tc) (htw : Valid tw) (htw' : Valid tw') {t w w' : Sp ν}
    (ht : tc.body = .sp t) (hw : tw.body = .sp w) (hw' : tw'.body = .sp w') (hcols : tc.cols = tw.cols)
    (hcols' : tw'.cols = tw.cols) (hsame : ∀ r c, entry tw' r c = entry tw r c) (typeOf : κ → κ) :
    ∃ u v, computeTokenWeights typeOf tc tw = .ok u ∧ computeTokenWeights typeOf tc tw' = .ok v ∧ SameNamed u v := by
  obtain ⟨u, _, h1, _, _, _, _, _, h2, h3, _, _, h4, _⟩ := C35_weights htc htw ht hw hcols typeOf
  obtain ⟨v, _, k1, _, _, _, _, _, k2, k3, _, _, k4, _⟩ := C35_weights htc htw' ht hw' (hcols.trans hcols'.symm) typeOf
  exact ⟨u, v, h1, k1, ⟨h2.trans k2.symm, h3.trans k3.symm, fun r c => by rw [h4, k4, hsame]⟩⟩

/-- **C35**: column lists that differ, even only in their order, are refused. -/
theorem C35_refused {tc tw : Mtx κ ν} (h : tc.cols ≠ tw.cols) (typeOf : κ → κ) (b : Bool) :
    computeTokenWeights typeOf tc tw b = .error (.py .valueError) := by
  unfold computeTokenWeights
  rw [if_pos h]

end

theorem splitSlash_ne_nil (l : List Char) : splitSlash l ≠ [] := by
  cases l with
  | nil => simp [splitSlash]
  | cons c cs => unfold splitSlash; split_ifs <;> [simp; (split <;> simp)]

theorem splitSlash_part (p : List Char) (hp : '/' ∉ p) (rest : List Char) :
    splitSlash (p ++ '/' :: rest) = p :: splitSlash rest := by
  induction p with
  | nil => simp [splitSlash]
  | cons c cs ih =>
    have hc : c ≠ '/' := by rintro rfl; simp at hp
    rw [List.cons_append]
    conv_lhs => unfold splitSlash
    rw [if_neg hc, ih (by simp_all)]

theorem splitSlash_last (p : List Char) (hp : '/' ∉ p) : splitSlash p = [p] := by
  induction p with
  | nil => rfl
  | cons c cs ih =>
    have hc : c ≠ '/' := by rintro rfl; simp at hp
    unfold splitSlash
    rw [if_neg hc, ih (by simp_all)]

/-- **C35**, the type of a token: for token strings `lemma/pos/...` (no slash inside lemma and pos) it is `lemma/pos` by
default and `lemma` otherwise. -/
theorem C35_token_type {lemma_ pos : List Char} (hl : '/' ∉ lemma_) (hp : '/' ∉ pos) (rest : List Char) :
    tokenType "lemma/pos" (lemma_ ++ '/' :: (pos ++ '/' :: rest)) = lemma_ ++ '/' :: pos ∧
    tokenType "lemma" (lemma_ ++ '/' :: rest) = lemma_ := by
  constructor
  · unfold tokenType
    rw [if_pos rfl, splitSlash_part _ hl, splitSlash_part _ hp]
    rfl
  · unfold tokenType
    rw [if_neg (by decide), splitSlash_part _ hl]
    rfl

/-- A token matrix and a weight matrix for the examples: tokens 11, 12 of type 1, token 21 of type 2, which has no
weights. -/
def sampleTc : Mtx Nat Int := ⟨.sp ⟨.csr, 3, 2, [((0, 0), -1), ((1, 1), 2), ((2, 0), 1)]⟩, [11, 12, 21], [5, 6]⟩
def sampleTw : Mtx Nat Int := ⟨.sp ⟨.csr, 2, 2, [((1, 0), 7), ((1, 1), 8)]⟩, [3, 1], [5, 6]⟩

/-- Non-vacuity for C35. -/
example : Valid sampleTc ∧ Valid sampleTw ∧ sampleTc.cols = sampleTw.cols ∧ entry sampleTc 11 5 ≠ 0 ∧ entry sampleTw 1 5 = 7 ∧
    computeTokenWeights (fun t => t / 10) sampleTc sampleTw =
      .ok ⟨.sp ⟨.csr, 3, 2, [((0, 0), 7), ((1, 1), 8)]⟩, [11, 12, 21], [5, 6]⟩ := by
  refine ⟨⟨rfl, rfl, by decide, by decide, ?_⟩, ⟨rfl, rfl, by decide, by decide, ?_⟩, rfl, by decide, rfl, rfl⟩
  · intro s hs; cases hs; exact ⟨by unfold Dict.WF; decide, by decide⟩
  · intro s hs; cases hs; exact ⟨by unfold Dict.WF; decide, by decide⟩

/-! ## C36 -/

/-- Specification: the sum over the contexts of weight times second-order value. -/
noncomputable def raw (tc so : Mtx κ ℝ) (tok f : κ) : ℝ := (tc.cols.map (fun c => entry tc tok c * entry so c f)).sum

/-- Specification of the norms. -/
noncomputable def vecNorm : Norm → List ℝ → ℝ
  | .l2, v => Real.sqrt ((v.map (fun x => x ^ 2)).sum)
  | _, v => (v.map (fun x => |x|)).sum

/-- Specification of normalisation: a vector is divided by its norm, a zero vector stays. -/
noncomputable def scaled (norm : Norm) (v : List ℝ) (x : ℝ) : ℝ :=
  if norm = .no ∨ vecNorm norm v = 0 then x else x / vecNorm norm v

theorem reorderRows_csr {m u : Mtx κ ℝ} {l : List κ} (hc : IsCsr m) (h : reorderRows m l = .ok u) : IsCsr u := by
  obtain ⟨s, hb, hf⟩ := hc
  unfold reorderRows at h
  cases h1 : indexList m.rows l with
  | error e => rw [h1] at h; cases h
  | ok idx =>
    rw [h1, hb] at h
    simp only [bind, Except.bind, bodyRows, if_neg (show s.fmt ≠ .coo by rw [hf]; simp)] at h
    unfold mkMtx at h
    split_ifs at h
    simp only [Except.ok.injEq] at h
    subst h
    exact ⟨_, rfl, hf⟩

theorem align_ok {tc so : Mtx κ ℝ} (htc : Valid tc) (hso : Valid so) (hc : IsCompressed so)
    (hset : ∀ c, c ∈ tc.cols ↔ c ∈ so.rows) :
    ∃ right, alignRows tc.cols so = .ok right ∧ (IsCsr so → isCsrBody right = true) ∧ subscriptable right = true ∧
      (∃ s, right = .sp s) ∧ right.nr = tc.cols.length ∧
      right.nc = so.cols.length ∧ ∀ (j k : Nat) (c f : κ), tc.cols[j]? = some c → so.cols[k]? = some f → right.val j k = entry so c f := by
  unfold alignRows
  rw [if_pos ⟨fun c h => (hset c).1 h, fun c h => (hset c).2 h⟩]
  by_cases heq : tc.cols = so.rows
  · rw [if_pos heq]
    obtain ⟨s, hs, hf⟩ := hc
    refine ⟨so.body, rfl, ?_, ?_, ⟨s, hs⟩, by rw [hso.nr, heq], hso.nc, ?_⟩
    · rintro ⟨s', hs', hf'⟩; rw [hs']; simp [isCsrBody, hf']
    · rw [hs]; simp [subscriptable, hf]
    · intro j k c f hj hk
      rw [entry_of hso.rows hso.cols (heq ▸ hj) hk]
  · rw [if_neg heq]
    have hne : tc.cols ≠ [] := by
      intro h
      apply heq
      rw [h]
      cases hr : so.rows with
      | nil => rfl
      | cons a l => have := (hset a).2 (by rw [hr]; simp); rw [h] at this; cases this
    obtain ⟨u, h1, h2, h3, h4, h5, h6⟩ := C24_reorderRows_partial hso hc hne htc.cols (fun c h => (hset c).1 h)
    rw [h1]
    obtain ⟨s, hs, hf⟩ := h3
    refine ⟨u.body, rfl, ?_, ?_, ⟨s, hs⟩, by rw [h2.nr, h4], by rw [h2.nc, h5], ?_⟩
    · intro hcsr
      obtain ⟨s', hs', hf'⟩ := reorderRows_csr hcsr h1
      rw [hs']; simp [isCsrBody, hf']
    · rw [hs]; simp [subscriptable, hf]
    · intro j k c f hj hk
      rw [← h6 c (List.mem_of_getElem? hj) f, entry_of h2.rows h2.cols (h4 ▸ hj) (h5 ▸ hk)]

/-- A list written by its indices. -/
theorem map_eq_range {α β : Type} (l : List α) (n : Nat) (hn : n = l.length) (g : α → β) (h : Nat → β)
    (hh : ∀ (j : Nat) (c : α), l[j]? = some c → h j = g c) : (List.range n).map h = l.map g := by
  apply List.ext_getElem?
  intro i
  rw [List.getElem?_map, List.getElem?_map]
  by_cases hi : i < l.length
  · rw [List.getElem?_range (by omega), List.getElem?_eq_getElem hi]
    simp only [Option.map_some]
    rw [hh i _ (List.getElem?_eq_getElem hi)]
  · rw [List.getElem?_eq_none (by simp; omega), List.getElem?_eq_none (by omega)]
    rfl

theorem normalize_ok (norm : Norm) (hno : norm ≠ .other) (s : Sp ℝ) (hs : s.WF) : ∃ t, normalize norm s = .ok t ∧ t.WF ∧
    t.fmt = s.fmt ∧ t.nr = s.nr ∧ t.nc = s.nc ∧ ∀ i j, t.val i j = scaled norm ((List.range s.nc).map (fun k => s.val i k)) (s.val i j) := by
  have hn : ∀ i, norm ≠ .other → rowNorm norm s i = vecNorm norm ((List.range s.nc).map (fun k => s.val i k)) := by
    intro i _
    unfold rowNorm vecNorm
    cases norm <;> simp [List.map_map, Function.comp_def]
  cases norm with
  | other => exact absurd rfl hno
  | no => exact ⟨s, rfl, hs, rfl, rfl, rfl, fun i j => by simp [scaled]⟩
  | l1 =>
    refine ⟨_, rfl, ⟨?_, ?_⟩, rfl, rfl, rfl, ?_⟩
    · unfold Dict.WF; rw [keys_mapVals s.data (fun k x => if rowNorm .l1 s k.1 = 0 then x else x / rowNorm .l1 s k.1)]; exact hs.nodup
    · intro p hp
      rw [keys_mapVals s.data (fun k x => if rowNorm .l1 s k.1 = 0 then x else x / rowNorm .l1 s k.1)] at hp
      exact hs.bound p hp
    · intro i j
      unfold Sp.val Sp.stored
      simp only
      rw [get?_mapVals s.data (fun k x => if rowNorm .l1 s k.1 = 0 then x else x / rowNorm .l1 s k.1)]
      simp only [hn i hno]
      unfold scaled
      simp only [reduceCtorEq, false_or]
      cases Dict.get? s.data (i, j) <;> simp [Sp.val, Sp.stored] <;> (split_ifs with h <;> simp [h])
  | l2 =>
    refine ⟨_, rfl, ⟨?_, ?_⟩, rfl, rfl, rfl, ?_⟩
    · unfold Dict.WF; rw [keys_mapVals s.data (fun k x => if rowNorm .l2 s k.1 = 0 then x else x / rowNorm .l2 s k.1)]; exact hs.nodup
    · intro p hp
      rw [keys_mapVals s.data (fun k x => if rowNorm .l2 s k.1 = 0 then x else x / rowNorm .l2 s k.1)] at hp
      exact hs.bound p hp
    · intro i j
      unfold Sp.val Sp.stored
      simp only
      rw [get?_mapVals s.data (fun k x => if rowNorm .l2 s k.1 = 0 then x else x / rowNorm .l2 s k.1)]
      simp only [hn i hno]
      unfold scaled
      simp only [reduceCtorEq, false_or]
      cases Dict.get? s.data (i, j) <;> simp [Sp.val, Sp.stored] <;> (split_ifs with h <;> simp [h])

/-- From the product array to the result. -/
theorem vectors_ok {tc so : Mtx κ ℝ} (htc : Valid tc) (hso : Valid so) {op : Oper} {norm : Norm} (hno : norm ≠ .other)
    {right : Body ℝ} {prod : Dn ℝ} (h1 : alignRows tc.cols so = .ok right) (h2 : product op tc.body right = .ok prod)
    (hnr : prod.nr = tc.rows.length) (hnc : prod.nc = so.cols.length) (spec : κ → κ → ℝ)
    (hspec : ∀ (i k : Nat) (tok f : κ), tc.rows[i]? = some tok → so.cols[k]? = some f → prod.elem i k = spec tok f) :
    ∃ u, computeTokenVectors tc so op norm = .ok u ∧ Valid u ∧ IsCsr u ∧ u.rows = tc.rows ∧ u.cols = so.cols ∧
      ∀ tok ∈ tc.rows, ∀ f ∈ so.cols, entry u tok f = scaled norm (so.cols.map (spec tok)) (spec tok f) := by
  obtain ⟨t, ht, hw, hf, hr, hc, hv⟩ := normalize_ok norm hno (toCsr prod) (toCsr_WF prod)
  unfold computeTokenVectors
  have e1 : t.nr = tc.rows.length := hr.trans hnr
  have e2 : t.nc = so.cols.length := hc.trans hnc
  simp only [h1, h2, ht, bind, Except.bind]
  rw [mkMtx_sp e1 e2]
  refine ⟨_, rfl, ⟨e1, e2, htc.rows, hso.cols, ?_⟩, ⟨t, rfl, hf⟩, rfl, rfl, ?_⟩
  · intro s hs; cases hs; exact hw
  · intro tok htok f hff
    obtain ⟨i, hi⟩ := getElem?_of_mem' htok
    obtain ⟨k, hk⟩ := getElem?_of_mem' hff
    have hil : i < prod.nr := by rw [hnr]; exact lt_of_getElem? hi
    rw [entry_of (m := ⟨.sp t, tc.rows, so.cols⟩) htc.rows hso.cols hi hk]
    simp only [Body.val]
    rw [hv, toCsr_val _ hil (by rw [hnc]; exact lt_of_getElem? hk), hspec i k tok f hi hk]
    congr 1
    apply map_eq_range _ _ hnc
    intro j c hj
    rw [toCsr_val _ hil (by rw [hnc]; exact lt_of_getElem? hj), hspec i j tok c hi hj]

theorem dotElem_raw {tc so : Mtx κ ℝ} (htc : Valid tc) {right : Body ℝ}
    (h : ∀ (j k : Nat) (c f : κ), tc.cols[j]? = some c → so.cols[k]? = some f → right.val j k = entry so c f) {i k : Nat} {tok f : κ}
    (hi : tc.rows[i]? = some tok) (hk : so.cols[k]? = some f) : dotElem tc.body right i k = raw tc so tok f := by
  unfold dotElem raw
  congr 1
  apply map_eq_range _ _ htc.nc
  intro j c hj
  rw [h j k c f hj hk, entry_of htc.rows htc.cols hi hj]

/-- **C36**, addition: for csr matrices whose context items agree as sets (in whatever order), the value at a token and a
feature is the sum over the contexts of weight times second-order value, divided by the norm of the token's vector if
normalisation is asked for. -/
theorem C36_addition {tc so : Mtx κ ℝ} (htc : Valid tc) (hso : Valid so) (hl : IsCsr tc) (hr : IsCsr so)
    (hset : ∀ c, c ∈ tc.cols ↔ c ∈ so.rows) {norm : Norm} (hno : norm ≠ .other) :
    ∃ u, computeTokenVectors tc so .addition norm = .ok u ∧ Valid u ∧ IsCsr u ∧ u.rows = tc.rows ∧ u.cols = so.cols ∧
      ∀ tok ∈ tc.rows, ∀ f ∈ so.cols, entry u tok f = scaled norm (so.cols.map (raw tc so tok)) (raw tc so tok f) := by
  have hc : IsCompressed so := by obtain ⟨s, hs, hf⟩ := hr; exact ⟨s, hs, by rw [hf]; simp⟩
  obtain ⟨right, h1, h2, _, _, h3, h4, h5⟩ := align_ok htc hso hc hset
  have hl' : isCsrBody tc.body = true := by obtain ⟨s, hs, hf⟩ := hl; rw [hs]; simp [isCsrBody, hf]
  have hp : product .addition tc.body right = .ok { nr := tc.body.nr, nc := right.nc, elem := dotElem tc.body right } := by
    unfold product dotAddition
    simp only
    rw [if_pos ⟨hl', h2 hr⟩]
  exact vectors_ok htc hso hno h1 hp htc.nr h4 (raw tc so) (fun i k tok f hi hk => dotElem_raw htc h5 hi hk)

/-- **C36**, addition without normalisation, for all names. -/
theorem C36_addition_raw {tc so : Mtx κ ℝ} (htc : Valid tc) (hso : Valid so) (hl : IsCsr tc) (hr : IsCsr so)
    (hset : ∀ c, c ∈ tc.cols ↔ c ∈ so.rows) :
    ∃ u, computeTokenVectors tc so .addition .no = .ok u ∧
      ∀ tok f, entry u tok f = (tc.cols.map (fun c => entry tc tok c * entry so c f)).sum := by
  obtain ⟨u, h1, _, _, h2, h3, h4⟩ := C36_addition htc hso hl hr hset (norm := .no) (by simp)
  refine ⟨u, h1, fun tok f => ?_⟩
  have hz : ∀ l : List κ, (∀ c ∈ l, entry tc tok c * entry so c f = 0) → (l.map (fun c => entry tc tok c * entry so c f)).sum = 0 := by
    intro l hl
    apply List.sum_eq_zero
    intro x hx
    obtain ⟨c, hc, rfl⟩ := List.mem_map.1 hx
    exact hl c hc
  by_cases htok : tok ∈ tc.rows
  · by_cases hf : f ∈ so.cols
    · rw [h4 tok htok f hf]
      simp [scaled, raw]
    · rw [entry_col_absent _ (by rw [h3]; exact hf), hz _ (fun c _ => by rw [entry_col_absent _ hf, mul_zero])]
  · rw [entry_row_absent (by rw [h2]; exact htok), hz _ (fun c _ => by rw [entry_row_absent htok, zero_mul])]

/-- **C36**: permuting the contexts of either matrix changes nothing. -/
theorem C36_order_irrelevant {tc tc' so so' : Mtx κ ℝ} (htc : Valid tc) (htc' : Valid tc') (hso : Valid so) (hso' : Valid so')
    (hl : IsCsr tc) (hl' : IsCsr tc') (hr : IsCsr so) (hr' : IsCsr so') (hset : ∀ c, c ∈ tc.cols ↔ c ∈ so.rows)
    (hrows : tc'.rows = tc.rows) (hcols : tc'.cols.Perm tc.cols) (he : ∀ r c, entry tc' r c = entry tc r c)
    (hrows' : so'.rows.Perm so.rows) (hcols' : so'.cols = so.cols) (he' : ∀ r c, entry so' r c = entry so r c)
    {norm : Norm} (hno : norm ≠ .other) :
    ∃ u v, computeTokenVectors tc so .addition norm = .ok u ∧ computeTokenVectors tc' so' .addition norm = .ok v ∧
      SameNamed u v := by
  obtain ⟨u, h1, _, _, h2, h3, h4⟩ := C36_addition htc hso hl hr hset hno
  have hset' : ∀ c, c ∈ tc'.cols ↔ c ∈ so'.rows := fun c => by rw [hcols.mem_iff, hset, hrows'.mem_iff]
  obtain ⟨v, k1, _, _, k2, k3, k4⟩ := C36_addition htc' hso' hl' hr' hset' hno
  have hraw : ∀ tok f, raw tc' so' tok f = raw tc so tok f := by
    intro tok f
    unfold raw
    rw [show (fun c => entry tc' tok c * entry so' c f) = fun c => entry tc tok c * entry so c f from funext fun c => by rw [he, he']]
    exact (hcols.map _).sum_eq
  refine ⟨u, v, h1, k1, ⟨by rw [h2, k2, hrows], by rw [h3, k3, hcols'], fun tok f => ?_⟩⟩
  by_cases htok : tok ∈ tc.rows
  · by_cases hf : f ∈ so.cols
    · rw [h4 tok htok f hf, k4 tok (hrows ▸ htok) f (hcols' ▸ hf), hraw, hcols',
        show raw tc' so' tok = raw tc so tok from funext (hraw tok)]
    · rw [entry_col_absent _ (by rw [h3]; exact hf), entry_col_absent _ (by rw [k3, hcols']; exact hf)]
  · rw [entry_row_absent (by rw [h2]; exact htok), entry_row_absent (by rw [k2, hrows]; exact htok)]

/-- **C36**, refusals: contexts that differ as sets, and (for addition) matrices that are not csr, e.g. transposed. -/
theorem C36_refused {tc so : Mtx κ ℝ} (op : Oper) (norm : Norm) (c : κ) (h : (c ∈ tc.cols ∧ c ∉ so.rows) ∨ (c ∈ so.rows ∧ c ∉ tc.cols)) :
    computeTokenVectors tc so op norm = .error (.py .valueError) := by
  unfold computeTokenVectors alignRows
  rw [if_neg]
  · rfl
  · rintro ⟨h1, h2⟩
    rcases h with ⟨a, b⟩ | ⟨a, b⟩
    · exact b (h1 c a)
    · exact b (h2 c a)

theorem C36_refused_format {tc so : Mtx κ ℝ} (htc : Valid tc) (hso : Valid so) (hc : IsCompressed so)
    (hset : ∀ c, c ∈ tc.cols ↔ c ∈ so.rows) (norm : Norm) (h : ¬ IsCsr tc) :
    computeTokenVectors tc so .addition norm = .error (.py .assertionError) := by
  obtain ⟨right, h1, _⟩ := align_ok htc hso hc hset
  unfold computeTokenVectors
  have : isCsrBody tc.body = false := by
    cases hb : tc.body with
    | dn d => rfl
    | sp s =>
      by_contra hh
      exact h ⟨s, hb, by simpa [isCsrBody] using hh⟩
  simp [h1, bind, Except.bind, product, dotAddition, this]

/-- **C36**: the operation `multiplication` subscripts the arrays, so that a coo matrix is a `TypeError`. -/
theorem C36_refused_coo {tc so : Mtx κ ℝ} (htc : Valid tc) (hso : Valid so) (hc : IsCompressed so)
    (hset : ∀ c, c ∈ tc.cols ↔ c ∈ so.rows) (norm : Norm) {s : Sp ℝ} (hs : tc.body = .sp s) (h : s.fmt = .coo) :
    computeTokenVectors tc so .multiplication norm = .error (.py .typeError) := by
  obtain ⟨right, h1, _⟩ := align_ok htc hso hc hset
  unfold computeTokenVectors
  simp [h1, bind, Except.bind, product, dotMultiplication, hs, subscriptable, h]

example : ∃ (tc so : Mtx Nat ℝ) (s : Sp ℝ), Valid tc ∧ Valid so ∧ IsCompressed so ∧ (∀ c, c ∈ tc.cols ↔ c ∈ so.rows) ∧
    tc.body = .sp s ∧ s.fmt = .coo :=
  ⟨⟨.sp ⟨.coo, 1, 1, [((0, 0), 3)]⟩, [1], [2]⟩, ⟨.sp ⟨.csr, 1, 1, [((0, 0), 4)]⟩, [2], [3]⟩, ⟨.coo, 1, 1, [((0, 0), 3)]⟩,
    ⟨rfl, rfl, by simp, by simp, fun _ h => by cases h; exact ⟨by simp [Dict.WF, Dict.keys], by simp [Dict.keys]⟩⟩,
    ⟨rfl, rfl, by simp, by simp, fun _ h => by cases h; exact ⟨by simp [Dict.WF, Dict.keys], by simp [Dict.keys]⟩⟩,
    ⟨_, rfl, by simp⟩, by simp, rfl, rfl⟩

theorem foldl_mulStep (l r : Body ℝ) (i k : Nat) (js : List Nat) (acc : ℝ) :
    js.foldl (mulStep l r i k) acc = if ∃ j ∈ js, l.val i j ≠ 0 ∧ r.val j k = 0 then 0 else acc := by
  induction js generalizing acc with
  | nil => simp
  | cons j js ih =>
    rw [List.foldl_cons, ih]
    by_cases hj : l.val i j ≠ 0 ∧ r.val j k = 0
    · have e : mulStep l r i k acc j = 0 := by
        unfold mulStep
        have : ¬(l.val i j = 0 ∨ r.val j k ≠ 0) := by push Not; exact hj
        rw [if_neg this, hj.2, mul_zero, mul_zero]
      rw [e, ite_self]
      exact (if_pos ⟨j, by simp, hj⟩).symm
    · have e : mulStep l r i k acc j = acc := by
        unfold mulStep
        have : l.val i j = 0 ∨ r.val j k ≠ 0 := by by_contra hc; push Not at hc; exact hj hc
        rw [if_pos this]
      rw [e]
      refine if_congr ⟨fun ⟨j', h1, h2⟩ => ⟨j', by simp [h1], h2⟩, fun ⟨j', h1, h2⟩ => ?_⟩ rfl rfl
      rcases List.mem_cons.1 h1 with rfl | h1
      · exact absurd h2 hj
      · exact ⟨j', h1, h2⟩

/-- **C36**, multiplication, what the code gives: not a product, but 0 or 1, namely 0 exactly if some context of the token
has the second-order value 0.  The array of the tokens may also be dense. -/
theorem C36_multiplication_actual {tc so : Mtx κ ℝ} (htc : Valid tc) (hso : Valid so)
    (hl : IsCompressed tc ∨ ∃ d, tc.body = .dn d) (hr : IsCompressed so)
    (hset : ∀ c, c ∈ tc.cols ↔ c ∈ so.rows) :
    ∃ u, computeTokenVectors tc so .multiplication .no = .ok u ∧ u.rows = tc.rows ∧ u.cols = so.cols ∧
      ∀ tok ∈ tc.rows, ∀ f ∈ so.cols,
        ((∃ c ∈ tc.cols, entry tc tok c ≠ 0 ∧ entry so c f = 0) → entry u tok f = 0) ∧
        ((∀ c ∈ tc.cols, entry tc tok c ≠ 0 → entry so c f ≠ 0) → entry u tok f = 1) := by
  classical
  obtain ⟨right, h1, _, h2, _, h3, h4, h5⟩ := align_ok htc hso hr hset
  have hl' : subscriptable tc.body = true := by
    rcases hl with ⟨s, hs, hf⟩ | ⟨d, hs⟩
    · rw [hs]; simp [subscriptable, hf]
    · rw [hs]; rfl
  have hp : product .multiplication tc.body right = .ok ⟨tc.body.nr, right.nc,
      fun i k => (List.range tc.body.nc).foldl (mulStep tc.body right i k) 1⟩ := by
    unfold product dotMultiplication
    simp only
    rw [if_pos ⟨hl', h2⟩]
  obtain ⟨u, k1, _, _, k2, k3, k4⟩ := vectors_ok htc hso (norm := .no) (by simp) h1 hp htc.nr h4
    (fun tok f => if ∃ c ∈ tc.cols, entry tc tok c ≠ 0 ∧ entry so c f = 0 then 0 else 1) (by
      intro i k tok f hi hk
      simp only
      rw [foldl_mulStep]
      refine if_congr ?_ rfl rfl
      constructor
      · rintro ⟨j, hj, a, b⟩
        rw [List.mem_range, htc.nc] at hj
        have hj' : tc.cols[j]? = some tc.cols[j] := List.getElem?_eq_getElem hj
        exact ⟨_, List.getElem_mem hj, by rw [entry_of htc.rows htc.cols hi hj']; exact a, by rw [← h5 j k _ f hj' hk]; exact b⟩
      · rintro ⟨c, hc, a, b⟩
        obtain ⟨j, hj⟩ := getElem?_of_mem' hc
        refine ⟨j, ?_, by rw [← entry_of htc.rows htc.cols hi hj]; exact a, by rw [h5 j k c f hj hk]; exact b⟩
        rw [List.mem_range, htc.nc]
        exact lt_of_getElem? hj)
  refine ⟨u, k1, k2, k3, fun tok htok f hf => ?_⟩
  have := k4 tok htok f hf
  simp only [scaled, true_or, if_true] at this
  rw [this]
  refine ⟨fun h => if_pos h, fun h => if_neg ?_⟩
  rintro ⟨c, hc, a, b⟩
  exact h c hc a b

/-- One token with one context of weight 2 and second-order value 3. -/
noncomputable def oneTc : Mtx Nat ℝ := ⟨.sp ⟨.csr, 1, 1, [((0, 0), 2)]⟩, [0], [1]⟩
noncomputable def oneSo : Mtx Nat ℝ := ⟨.sp ⟨.csr, 1, 1, [((0, 0), 3)]⟩, [1], [2]⟩

theorem oneTc_valid : Valid oneTc := by
  refine ⟨rfl, rfl, by simp [oneTc], by simp [oneTc], ?_⟩
  intro s hs; cases hs; exact ⟨by unfold Dict.WF; decide, by decide⟩

theorem oneSo_valid : Valid oneSo := by
  refine ⟨rfl, rfl, by simp [oneSo], by simp [oneSo], ?_⟩
  intro s hs; cases hs; exact ⟨by unfold Dict.WF; decide, by decide⟩

theorem oneTc_entry : entry oneTc 0 1 = 2 := by
  rw [entry_of (i := 0) (j := 0) oneTc_valid.rows oneTc_valid.cols rfl rfl]
  simp [oneTc, Body.val, Sp.val, Sp.stored, Dict.get?_cons]

theorem oneSo_entry : entry oneSo 1 2 = 3 := by
  rw [entry_of (i := 0) (j := 0) oneSo_valid.rows oneSo_valid.cols rfl rfl]
  simp [oneSo, Body.val, Sp.val, Sp.stored, Dict.get?_cons]

/-- **C36 is false** for multiplication: weight 2 and second-order value 3 give 1 instead of 6. -/
theorem C36_false_multiplication : ∃ tc so u : Mtx Nat ℝ, Valid tc ∧ Valid so ∧ IsCsr tc ∧ IsCsr so ∧ tc.cols = so.rows ∧
    computeTokenVectors tc so .multiplication .no = .ok u ∧
    (tc.cols.map (fun c => entry tc 0 c * entry so c 2)).prod = 6 ∧ entry u 0 2 = 1 := by
  obtain ⟨u, h1, _, _, h2⟩ := C36_multiplication_actual oneTc_valid oneSo_valid (Or.inl ⟨_, rfl, by simp⟩) ⟨_, rfl, by simp⟩
    (by intro c; simp [oneTc, oneSo])
  refine ⟨oneTc, oneSo, u, oneTc_valid, oneSo_valid, ⟨_, rfl, rfl⟩, ⟨_, rfl, rfl⟩, rfl, h1, ?_, ?_⟩
  · show ([1].map (fun c => entry oneTc 0 c * entry oneSo c 2)).prod = 6
    simp [oneTc_entry, oneSo_entry]
    norm_num
  · refine (h2 0 (by simp [oneTc]) 2 (by simp [oneSo])).2 ?_
    intro c hc _
    have : c = 1 := by simpa [oneTc] using hc
    subst this
    rw [oneSo_entry]
    norm_num

/-- Non-vacuity for C36. -/
example : ∃ u, computeTokenVectors oneTc oneSo .addition .no = .ok u ∧ entry u 0 2 = 6 := by
  obtain ⟨u, h1, h2⟩ := C36_addition_raw oneTc_valid oneSo_valid ⟨_, rfl, rfl⟩ ⟨_, rfl, rfl⟩ (by intro c; simp [oneTc, oneSo])
  refine ⟨u, h1, ?_⟩
  rw [h2]
  show ([1].map (fun c => entry oneTc 0 c * entry oneSo c 2)).sum = 6
  simp [oneTc_entry, oneSo_entry]
  norm_num

/-! ## C61: normalised token vectors have norm 1 -/

theorem map_div_sum (v : List ℝ) (g : ℝ → ℝ) (a : ℝ) : (v.map (fun x => g x / a)).sum = (v.map g).sum / a := by
  induction v with
  | nil => simp
  | cons x v ih => simp [ih, add_div]

/-- **C61**: with 'l1' (the default) or 'l2' normalisation every token vector has norm 1, or is zero throughout. -/
theorem C61_unit_norm {tc so : Mtx κ ℝ} (htc : Valid tc) (hso : Valid so) (hl : IsCsr tc) (hr : IsCsr so)
    (hset : ∀ c, c ∈ tc.cols ↔ c ∈ so.rows) :
    (∃ u, computeTokenVectors tc so = .ok u ∧ ∀ tok ∈ tc.rows,
      (so.cols.map (fun f => |entry u tok f|)).sum = 1 ∨ ∀ f, entry u tok f = 0) ∧
    (∃ u, computeTokenVectors tc so .addition .l2 = .ok u ∧ ∀ tok ∈ tc.rows,
      (so.cols.map (fun f => entry u tok f ^ 2)).sum = 1 ∨ ∀ f, entry u tok f = 0) := by
  constructor
  · obtain ⟨u, h1, _, _, _, h3, h4⟩ := C36_addition htc hso hl hr hset (norm := .l1) (by simp)
    refine ⟨u, h1, fun tok htok => ?_⟩
    by_cases h0 : vecNorm .l1 (so.cols.map (raw tc so tok)) = 0
    · right
      intro f
      by_cases hf : f ∈ so.cols
      · rw [h4 tok htok f hf]
        unfold scaled
        rw [if_pos (Or.inr h0)]
        have hz : ∀ x ∈ (so.cols.map (raw tc so tok)).map (fun x => |x|), x = 0 := by
          have hnn : ∀ x ∈ (so.cols.map (raw tc so tok)).map (fun x => |x|), (0 : ℝ) ≤ x := by
            intro x hx
            obtain ⟨y, _, rfl⟩ := List.mem_map.1 hx
            exact abs_nonneg y
          have hle := fun x hx => List.single_le_sum hnn x hx
          intro x hx
          have := hle x hx
          unfold vecNorm at h0
          simp only at h0
          rw [h0] at this
          exact le_antisymm this (hnn x hx)
        exact abs_eq_zero.1 (hz _ (List.mem_map.2 ⟨_, List.mem_map.2 ⟨f, hf, rfl⟩, rfl⟩))
      · exact entry_col_absent _ (by rw [h3]; exact hf)
    · left
      have hpos : 0 < vecNorm .l1 (so.cols.map (raw tc so tok)) := by
        refine lt_of_le_of_ne ?_ (Ne.symm h0)
        unfold vecNorm
        apply List.sum_nonneg
        intro x hx
        obtain ⟨y, _, rfl⟩ := List.mem_map.1 hx
        exact abs_nonneg y
      have e : so.cols.map (fun f => |entry u tok f|) =
          (so.cols.map (raw tc so tok)).map (fun x => |x| / vecNorm .l1 (so.cols.map (raw tc so tok))) := by
        rw [List.map_map]
        apply List.map_congr_left
        intro f hf
        rw [h4 tok htok f hf]
        unfold scaled
        rw [if_neg (by simp [h0]), abs_div, abs_of_pos hpos]
        rfl
      rw [e, map_div_sum]
      exact div_self h0
  · obtain ⟨u, h1, _, _, _, h3, h4⟩ := C36_addition htc hso hl hr hset (norm := .l2) (by simp)
    refine ⟨u, h1, fun tok htok => ?_⟩
    have hnn : ∀ x ∈ (so.cols.map (raw tc so tok)).map (fun x => x ^ 2), (0 : ℝ) ≤ x := by
      intro x hx
      obtain ⟨y, _, rfl⟩ := List.mem_map.1 hx
      exact sq_nonneg y
    have hs := List.sum_nonneg hnn
    by_cases h0 : vecNorm .l2 (so.cols.map (raw tc so tok)) = 0
    · right
      intro f
      by_cases hf : f ∈ so.cols
      · rw [h4 tok htok f hf]
        unfold scaled
        rw [if_pos (Or.inr h0)]
        unfold vecNorm at h0
        simp only at h0
        rw [Real.sqrt_eq_zero hs] at h0
        have := List.single_le_sum hnn _ (List.mem_map.2 ⟨_, List.mem_map.2 ⟨f, hf, rfl⟩, rfl⟩)
        rw [h0] at this
        exact pow_eq_zero_iff (two_ne_zero) |>.1 (le_antisymm this (sq_nonneg _))
      · exact entry_col_absent _ (by rw [h3]; exact hf)
    · left
      have e : so.cols.map (fun f => entry u tok f ^ 2) =
          (so.cols.map (raw tc so tok)).map (fun x => x ^ 2 / vecNorm .l2 (so.cols.map (raw tc so tok)) ^ 2) := by
        rw [List.map_map]
        apply List.map_congr_left
        intro f hf
        rw [h4 tok htok f hf]
        unfold scaled
        rw [if_neg (by simp [h0]), div_pow]
        rfl
      rw [e, map_div_sum]
      have : vecNorm .l2 (so.cols.map (raw tc so tok)) ^ 2 = ((so.cols.map (raw tc so tok)).map (fun x => x ^ 2)).sum := by
        unfold vecNorm
        exact Real.sq_sqrt hs
      rw [← this]
      exact div_self (pow_ne_zero 2 h0)

/-! ## C62: weighted mean -/

theorem wsum_bounds {α : Type} (l : List α) (w v : α → ℝ) (lo hi : ℝ) (hw : ∀ c ∈ l, 0 ≤ w c)
    (hv : ∀ c ∈ l, 0 < w c → lo ≤ v c ∧ v c ≤ hi) :
    lo * (l.map w).sum ≤ (l.map (fun c => w c * v c)).sum ∧ (l.map (fun c => w c * v c)).sum ≤ hi * (l.map w).sum := by
  induction l with
  | nil => simp
  | cons c l ih =>
    have h := ih (fun x hx => hw x (by simp [hx])) (fun x hx => hv x (by simp [hx]))
    simp only [List.map_cons, List.sum_cons]
    rcases (hw c (by simp)).eq_or_lt with h0 | h0
    · rw [← h0]; constructor <;> linarith [h.1, h.2]
    · obtain ⟨a, b⟩ := hv c (by simp) h0
      constructor <;> nlinarith [h.1, h.2]

/-- **C62** without a condition on the weights: the quotient of the weighted sum and the total weight; where the total is 0,
`nan_to_num` gives 0 for the sum 0 and the largest float, with the sign of the sum, otherwise. -/
theorem C62_signed {tc so : Mtx κ ℝ} (htc : Valid tc) (hso : Valid so) {t : Sp ℝ} (hl : tc.body = .sp t) (hr : IsCompressed so)
    (hset : ∀ c, c ∈ tc.cols ↔ c ∈ so.rows) :
    ∃ u, computeTokenVectors tc so .weightedmean .no = .ok u ∧ u.rows = tc.rows ∧ u.cols = so.cols ∧
      ∀ tok ∈ tc.rows, ∀ f ∈ so.cols, ∀ x w, x = (tc.cols.map (fun c => entry tc tok c * entry so c f)).sum →
        w = (tc.cols.map (fun c => entry tc tok c)).sum →
        (w ≠ 0 → entry u tok f = x / w) ∧ (w = 0 → x = 0 → entry u tok f = 0) ∧
        (w = 0 → 0 < x → entry u tok f = (2 - 1 / 2 ^ 52) * 2 ^ 1023) ∧
        (w = 0 → x < 0 → entry u tok f = -((2 - 1 / 2 ^ 52) * 2 ^ 1023)) := by
  obtain ⟨right, h1, _, _, ⟨rs, hrs⟩, h3, h4, h5⟩ := align_ok htc hso hr hset
  have hp : product .weightedmean tc.body right = .ok ⟨tc.body.nr, right.nc,
      fun i k => nanToNumDiv (dotElem tc.body right i k) (rowTotal tc.body i)⟩ := by
    rw [hl, hrs]
    rfl
  obtain ⟨u, k1, _, _, k2, k3, k4⟩ := vectors_ok htc hso (norm := .no) (by simp) h1 hp htc.nr h4
    (fun tok f => nanToNumDiv (raw tc so tok f) (tc.cols.map (fun c => entry tc tok c)).sum) (by
      intro i k tok f hi hk
      simp only
      rw [dotElem_raw htc h5 hi hk]
      congr 1
      unfold rowTotal
      congr 1
      apply map_eq_range _ _ htc.nc
      intro j c hj
      rw [entry_of htc.rows htc.cols hi hj])
  refine ⟨u, k1, k2, k3, fun tok htok f hf x w hx hw => ?_⟩
  have e := k4 tok htok f hf
  simp only [scaled, true_or, if_true] at e
  have er : raw tc so tok f = x := hx.symm
  rw [er, ← hw] at e
  rw [e]
  unfold nanToNumDiv maxFloat
  refine ⟨fun h => if_neg h, fun h h' => ?_, fun h h' => ?_, fun h h' => ?_⟩
  · rw [if_pos h, if_pos h']
  · rw [if_pos h, if_neg h'.ne', if_pos h']
  · rw [if_pos h, if_neg h'.ne, if_neg (not_lt.2 h'.le)]

example : ∃ w : List ℝ, w.sum = 0 ∧ 0 < (List.zipWith (· * ·) w [3, 1]).sum := ⟨[1, -1], by norm_num, by norm_num⟩

/-- **C62**: with non-negative weights, 'weightedmean' without normalisation gives at (token, feature) the mean of the
second-order values weighted by the token's weights: it lies between any bounds of the values of contexts with positive
weight, and tokens without weight get 0. -/
theorem C62_weighted_mean {tc so : Mtx κ ℝ} (htc : Valid tc) (hso : Valid so) {t : Sp ℝ} (hl : tc.body = .sp t) (hr : IsCompressed so)
    (hset : ∀ c, c ∈ tc.cols ↔ c ∈ so.rows) (hnn : ∀ r c, 0 ≤ entry tc r c) :
    ∃ u, computeTokenVectors tc so .weightedmean .no = .ok u ∧ u.rows = tc.rows ∧ u.cols = so.cols ∧
      ∀ tok ∈ tc.rows, ∀ f ∈ so.cols,
        ((∀ c ∈ tc.cols, entry tc tok c = 0) → entry u tok f = 0) ∧
        ((∃ c ∈ tc.cols, entry tc tok c ≠ 0) →
          entry u tok f = (tc.cols.map (fun c => entry tc tok c * entry so c f)).sum / (tc.cols.map (fun c => entry tc tok c)).sum ∧
          ∀ lo hi, (∀ c ∈ tc.cols, 0 < entry tc tok c → lo ≤ entry so c f ∧ entry so c f ≤ hi) →
            lo ≤ entry u tok f ∧ entry u tok f ≤ hi) := by
  obtain ⟨right, h1, _, _, ⟨rs, hrs⟩, h3, h4, h5⟩ := align_ok htc hso hr hset
  have hp : product .weightedmean tc.body right = .ok ⟨tc.body.nr, right.nc,
      fun i k => nanToNumDiv (dotElem tc.body right i k) (rowTotal tc.body i)⟩ := by
    rw [hl, hrs]
    rfl
  obtain ⟨u, k1, _, _, k2, k3, k4⟩ := vectors_ok htc hso (norm := .no) (by simp) h1 hp htc.nr h4
    (fun tok f => nanToNumDiv (raw tc so tok f) (tc.cols.map (fun c => entry tc tok c)).sum) (by
      intro i k tok f hi hk
      simp only
      rw [dotElem_raw htc h5 hi hk]
      congr 1
      unfold rowTotal
      congr 1
      apply map_eq_range _ _ htc.nc
      intro j c hj
      rw [entry_of htc.rows htc.cols hi hj])
  refine ⟨u, k1, k2, k3, fun tok htok f hf => ?_⟩
  have e := k4 tok htok f hf
  simp only [scaled, true_or, if_true] at e
  rw [e]
  constructor
  · intro h0
    have a : raw tc so tok f = 0 := by
      unfold raw
      apply List.sum_eq_zero
      intro x hx
      obtain ⟨c, hc, rfl⟩ := List.mem_map.1 hx
      rw [h0 c hc, zero_mul]
    have b : (tc.cols.map (fun c => entry tc tok c)).sum = 0 := by
      apply List.sum_eq_zero
      intro x hx
      obtain ⟨c, hc, rfl⟩ := List.mem_map.1 hx
      exact h0 c hc
    rw [a, b]
    simp [nanToNumDiv]
  · rintro ⟨c, hc, hne⟩
    have hpos : 0 < (tc.cols.map (fun c => entry tc tok c)).sum := by
      have hge : ∀ x ∈ tc.cols.map (fun c => entry tc tok c), (0 : ℝ) ≤ x := by
        intro x hx
        obtain ⟨c, _, rfl⟩ := List.mem_map.1 hx
        exact hnn tok c
      exact lt_of_lt_of_le (lt_of_le_of_ne (hnn tok c) (Ne.symm hne)) (List.single_le_sum hge _ (List.mem_map.2 ⟨c, hc, rfl⟩))
    unfold nanToNumDiv
    rw [if_neg (ne_of_gt hpos)]
    refine ⟨rfl, fun lo hi hb => ?_⟩
    have := wsum_bounds tc.cols (fun c => entry tc tok c) (fun c => entry so c f) lo hi (fun c _ => hnn tok c) hb
    rw [le_div_iff₀ hpos, div_le_iff₀ hpos]
    exact this

/-! ## C63: cosine similarity -/

theorem sum_range_list (n : Nat) (f : Nat → ℝ) : ((List.range n).map f).sum = ∑ j ∈ Finset.range n, f j := by
  induction n with
  | zero => rfl
  | succ n ih => rw [List.range_succ, List.map_append, List.sum_append, ih, Finset.sum_range_succ]; simp

theorem rowDot_eq (x : Body ℝ) (a b : Nat) : rowDot x a b = ∑ j ∈ Finset.range x.nc, x.val a j * x.val b j := sum_range_list _ _

theorem rowDot_comm (x : Body ℝ) (a b : Nat) : rowDot x a b = rowDot x b a := by
  rw [rowDot_eq, rowDot_eq]
  exact Finset.sum_congr rfl (fun j _ => mul_comm _ _)

theorem rowDot_self_nonneg (x : Body ℝ) (a : Nat) : 0 ≤ rowDot x a a := by
  rw [rowDot_eq]
  exact Finset.sum_nonneg (fun j _ => mul_self_nonneg _)

theorem rowDot_sq_le (x : Body ℝ) (a b : Nat) : rowDot x a b ^ 2 ≤ rowDot x a a * rowDot x b b := by
  rw [rowDot_eq, rowDot_eq, rowDot_eq]
  have := Finset.sum_mul_sq_le_sq_mul_sq (Finset.range x.nc) (fun j => x.val a j) (fun j => x.val b j)
  simpa [sq] using this

theorem cosElem_comm (x : Body ℝ) (a b : Nat) : cosElem x a b = cosElem x b a := by
  unfold cosElem
  rw [rowDot_comm x a b, mul_comm (Real.sqrt _)]
  exact if_congr or_comm rfl rfl

theorem cosElem_bounds (x : Body ℝ) (a b : Nat) : -1 ≤ cosElem x a b ∧ cosElem x a b ≤ 1 := by
  unfold cosElem
  split
  · constructor <;> norm_num
  · next h =>
    push Not at h
    have ha : 0 < rowDot x a a := lt_of_le_of_ne (rowDot_self_nonneg x a) (Ne.symm h.1)
    have hb : 0 < rowDot x b b := lt_of_le_of_ne (rowDot_self_nonneg x b) (Ne.symm h.2)
    rw [← Real.sqrt_mul ha.le]
    have hp : 0 < Real.sqrt (rowDot x a a * rowDot x b b) := Real.sqrt_pos.2 (mul_pos ha hb)
    have hle : |rowDot x a b| ≤ Real.sqrt (rowDot x a a * rowDot x b b) := Real.abs_le_sqrt (rowDot_sq_le x a b)
    rw [abs_le] at hle
    constructor
    · rw [le_div_iff₀ hp]; linarith [hle.1]
    · rw [div_le_iff₀ hp]; linarith [hle.2]

/-- Specification: the scalar product of two named rows. -/
noncomputable def namedDot (m : Mtx κ ℝ) (a b : κ) : ℝ := (m.cols.map (fun c => entry m a c * entry m b c)).sum

theorem cosDn_spec {m : Mtx κ ℝ} (hm : Valid m) (hr : m.rows ≠ []) (hc : m.cols ≠ []) : ∃ u, computeCosine m = .ok u ∧ Valid u ∧ u.rows = m.rows ∧ u.cols = m.rows ∧
    ∀ (i j : Nat) (a b : κ), m.rows[i]? = some a → m.rows[j]? = some b → entry u a b = if i = j then 1 else cosElem m.body i j := by
  have hz : ¬ (m.body.nr = 0 ∨ m.body.nc = 0) := by
    rw [hm.nr, hm.nc]
    simp [hr, hc]
  unfold computeCosine cosinesOf mkMtx
  have e1 : (Body.dn (cosDn m.body)).nr = m.rows.length := hm.nr
  have e2 : (Body.dn (cosDn m.body)).nc = m.rows.length := hm.nr
  rw [if_pos rfl, if_neg hz, if_neg (by simp [e1]), if_neg (by simp [e2])]
  simp only [ne_eq, not_true_eq_false, and_false, if_false]
  refine ⟨_, rfl, ⟨hm.nr, hm.nr, hm.rows, hm.rows, ?_⟩, rfl, rfl, ?_⟩
  · intro s hs; cases hs
  · intro i j a b hi hj
    rw [entry_of (m := ⟨.dn (cosDn m.body), m.rows, m.rows⟩) hm.rows hm.rows hi hj]
    rfl

/-- **C63**: the similarity matrix has the row items on both sides, is symmetric, has ones on the diagonal and values
in [-1, 1]; off the diagonal a value is the scalar product of the two named rows divided by the product of their
Euclidean norms, and 0 if one of them is a zero row. -/
theorem C63_cosine {m : Mtx κ ℝ} (hm : Valid m) (hr : m.rows ≠ []) (hc : m.cols ≠ []) :
    ∃ u, computeCosine m = .ok u ∧ u.rows = m.rows ∧ u.cols = m.rows ∧
      (∀ a b, entry u a b = entry u b a) ∧ (∀ a ∈ m.rows, entry u a a = 1) ∧ (∀ a b, -1 ≤ entry u a b ∧ entry u a b ≤ 1) ∧
      ∀ a ∈ m.rows, ∀ b ∈ m.rows, a ≠ b →
        ((namedDot m a a = 0 ∨ namedDot m b b = 0) → entry u a b = 0) ∧
        (namedDot m a a ≠ 0 → namedDot m b b ≠ 0 →
          entry u a b = namedDot m a b / (Real.sqrt (namedDot m a a) * Real.sqrt (namedDot m b b))) := by
  obtain ⟨u, h1, h2, h3, h4, h5⟩ := cosDn_spec hm hr hc
  refine ⟨u, h1, h3, h4, ?_, ?_, ?_, ?_⟩
  · intro a b
    by_cases ha : a ∈ m.rows
    · by_cases hb : b ∈ m.rows
      · obtain ⟨i, hi⟩ := getElem?_of_mem' ha
        obtain ⟨j, hj⟩ := getElem?_of_mem' hb
        rw [h5 i j a b hi hj, h5 j i b a hj hi, cosElem_comm]
        exact if_congr eq_comm rfl rfl
      · rw [entry_col_absent _ (by rw [h4]; exact hb), entry_row_absent (by rw [h3]; exact hb)]
    · rw [entry_row_absent (by rw [h3]; exact ha), entry_col_absent _ (by rw [h4]; exact ha)]
  · intro a ha
    obtain ⟨i, hi⟩ := getElem?_of_mem' ha
    rw [h5 i i a a hi hi, if_pos rfl]
  · intro a b
    by_cases ha : a ∈ m.rows
    · by_cases hb : b ∈ m.rows
      · obtain ⟨i, hi⟩ := getElem?_of_mem' ha
        obtain ⟨j, hj⟩ := getElem?_of_mem' hb
        rw [h5 i j a b hi hj]
        split
        · constructor <;> norm_num
        · exact cosElem_bounds _ _ _
      · rw [entry_col_absent _ (by rw [h4]; exact hb)]; constructor <;> norm_num
    · rw [entry_row_absent (by rw [h3]; exact ha)]; constructor <;> norm_num
  · intro a ha b hb hab
    obtain ⟨i, hi⟩ := getElem?_of_mem' ha
    obtain ⟨j, hj⟩ := getElem?_of_mem' hb
    have hij : i ≠ j := by rintro rfl; rw [hi] at hj; cases hj; exact hab rfl
    have hd : ∀ (i j : Nat) (a b : κ), m.rows[i]? = some a → m.rows[j]? = some b → rowDot m.body i j = namedDot m a b := by
      intro i j a b hi hj
      unfold rowDot namedDot
      congr 1
      apply map_eq_range _ _ hm.nc
      intro k c hk
      rw [entry_of hm.rows hm.cols hi hk, entry_of hm.rows hm.cols hj hk]
    rw [h5 i j a b hi hj, if_neg hij]
    unfold cosElem
    rw [hd i i a a hi hi, hd j j b b hj hj, hd i j a b hi hj]
    exact ⟨fun h => if_pos h, fun h1 h2 => if_neg (by tauto)⟩

/-- **C63**: multiplying rows by positive factors changes nothing. -/
theorem C63_scale_invariant {m t : Mtx κ ℝ} (hm : Valid m) (ht : Valid t) (hnr : m.rows ≠ []) (hnc : m.cols ≠ [])
    (hr : t.rows = m.rows) (hc : t.cols = m.cols)
    (k : κ → ℝ) (hk : ∀ a, 0 < k a) (he : ∀ a c, entry t a c = k a * entry m a c) :
    ∃ u v, computeCosine m = .ok u ∧ computeCosine t = .ok v ∧ SameNamed u v := by
  obtain ⟨u, h1, h2, h3, _, h4, _, h5⟩ := C63_cosine hm hnr hnc
  obtain ⟨v, k1, k2, k3, _, k4, _, k5⟩ := C63_cosine ht (hr ▸ hnr) (hc ▸ hnc)
  refine ⟨u, v, h1, k1, ⟨by rw [h2, k2, hr], by rw [h3, k3, hr], fun a b => ?_⟩⟩
  have hd : ∀ a b, namedDot t a b = k a * k b * namedDot m a b := by
    intro a b
    unfold namedDot
    rw [hc]
    have e : (fun c => entry t a c * entry t b c) = fun c => k a * k b * (entry m a c * entry m b c) :=
      funext fun c => by rw [he, he]; ring
    rw [e, List.sum_map_mul_left]
  by_cases ha : a ∈ m.rows
  · by_cases hb : b ∈ m.rows
    · by_cases hab : a = b
      · subst hab; rw [h4 a ha, k4 a (hr ▸ ha)]
      · have p1 := h5 a ha b hb hab
        have p2 := k5 a (hr ▸ ha) b (hr ▸ hb) hab
        have ka := hk a
        have kb := hk b
        have z : ∀ a, namedDot t a a = 0 ↔ namedDot m a a = 0 := by
          intro a
          rw [hd, mul_eq_zero, or_iff_right (ne_of_gt (mul_pos (hk a) (hk a)))]
        by_cases h0 : namedDot m a a = 0 ∨ namedDot m b b = 0
        · rw [p1.1 h0, p2.1 (by rwa [z, z])]
        · push Not at h0
          rw [p1.2 h0.1 h0.2, p2.2 (by rw [Ne, z]; exact h0.1) (by rw [Ne, z]; exact h0.2), hd a b, hd a a, hd b b,
            Real.sqrt_mul (mul_self_nonneg _), Real.sqrt_mul (mul_self_nonneg _), Real.sqrt_mul_self ka.le, Real.sqrt_mul_self kb.le]
          have e : k a * Real.sqrt (namedDot m a a) * (k b * Real.sqrt (namedDot m b b)) =
              k a * k b * (Real.sqrt (namedDot m a a) * Real.sqrt (namedDot m b b)) := by ring
          rw [e, mul_div_mul_left _ _ (ne_of_gt (mul_pos ka kb))]
    · rw [entry_col_absent _ (by rw [h3]; exact hb), entry_col_absent _ (by rw [k3, hr]; exact hb)]
  · rw [entry_row_absent (by rw [h2]; exact ha), entry_row_absent (by rw [k2, hr]; exact ha)]

/-- **C63**, columns: `axis=1` is the similarity of the rows of the transposed matrix; other axes are refused. -/
theorem C63_axis {m t : Mtx κ ℝ} (ht : Verif.Matrix.transpose m = .ok t) :
    computeCosine m 1 = computeCosine t 0 ∧ ∀ axis, axis ≠ 0 → axis ≠ 1 → computeCosine m axis = .error (.py .valueError) := by
  constructor
  · have hb : t.body = transposeBody m.body ∧ t.rows = m.cols := by
      unfold Verif.Matrix.transpose at ht
      cases hbody : m.body with
      | sp s =>
        rw [hbody] at ht
        simp only [mkMtx] at ht
        split_ifs at ht
        simp only [Except.ok.injEq] at ht
        subst ht
        exact ⟨rfl, rfl⟩
      | dn d =>
        rw [hbody] at ht
        simp only [mkMtx] at ht
        split_ifs at ht
        simp only [Except.ok.injEq] at ht
        subst ht
        exact ⟨rfl, rfl⟩
    unfold computeCosine
    rw [if_neg (by norm_num), if_pos rfl, if_pos rfl, hb.1, hb.2]
  · intro axis h0 h1
    unfold computeCosine
    rw [if_neg h0, if_neg h1]

/-- **C63**: a matrix without rows or without columns is refused. -/
theorem C63_empty {m : Mtx κ ℝ} (hm : Valid m) (h : m.rows = [] ∨ m.cols = []) (axis : Int) :
    computeCosine m axis = .error (.py .valueError) := by
  have hz : (transposeBody m.body).nr = m.body.nc ∧ (transposeBody m.body).nc = m.body.nr := by
    cases m.body <;> exact ⟨rfl, rfl⟩
  unfold computeCosine cosinesOf
  rw [hz.1, hz.2, hm.nr, hm.nc]
  rcases h with h | h <;> rw [h] <;> simp

/-- Non-vacuity for C61-C63: `oneTc`, `oneSo` above; their weights are non-negative and the first row is not zero. -/
example : Valid oneTc ∧ Valid oneSo ∧ namedDot oneTc 0 0 ≠ 0 ∧ 0 < entry oneTc 0 1 := by
  refine ⟨oneTc_valid, oneSo_valid, ?_, by rw [oneTc_entry]; norm_num⟩
  show ([1].map (fun c => entry oneTc 0 c * entry oneTc 0 c)).sum ≠ 0
  simp [oneTc_entry]

end Verif.Assoc
