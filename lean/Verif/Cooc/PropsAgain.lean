import Verif.Cooc.PropsLaws

/-!
# C210: a `ColFreqHandler` that is used again

`/repo/nephosem/models/typetoken.py:188-196 and 198-223`: the vocabularies of a call are kept in the handler.
-/

set_option linter.unusedSectionVars false

namespace Verif.Cooc
open Verif.Py Verif.Vocab Verif.Corpus Verif.Window Verif.Engine Verif.Matrix

variable {ℓ μ κ : Type} [LinearOrder κ]

/-! ## Model -/

/-- `v if v else own`, typetoken.py 191-192, 216 and 220: `None` and an empty vocabulary are no vocabulary. -/
def orOwn (own : Vocab κ) : Option (Vocab κ) → Vocab κ
  | none => own
  | some v => if Vocab.len v = 0 then own else v

/-- The vocabularies of a handler. -/
structure ColHandler (κ : Type) where
  rowv : Vocab κ
  colv : Vocab κ

/-- `ColFreqHandler(settings, row_vocab=…, col_vocab=…)`, typetoken.py 188-192. -/
def newHandler (row col : Option (Vocab κ)) : ColHandler κ := ⟨orOwn Vocab.empty row, orOwn Vocab.empty col⟩

/-- `build_col_freq(fnames, row_vocab, col_vocab)` up to line 220: the handler afterwards.  Without rows the call returns before the
column vocabulary is looked at. -/
def setVocabs (h : ColHandler κ) (row col : Option (Vocab κ)) : ColHandler κ :=
  if Vocab.len (orOwn h.rowv row) = 0 then ⟨orOwn h.rowv row, h.colv⟩ else ⟨orOwn h.rowv row, orOwn h.colv col⟩

/-- The call returns `res`: as `Returns`, with the vocabularies in the handler. -/
def CallReturns (f : Formatter ℓ μ κ) (L R : Nat) (h : ColHandler κ) (row col : Option (Vocab κ)) (files : List (List ℓ))
    (res : Option (Mtx κ Int)) : Prop :=
  Returns f L R (setVocabs h row col).rowv (setVocabs h row col).colv files res

/-- The handler after calls with these vocabularies (the files do not matter). -/
def afterCalls (h : ColHandler κ) (cs : List (Option (Vocab κ) × Option (Vocab κ))) : ColHandler κ :=
  cs.foldl (fun h c => setVocabs h c.1 c.2) h

/-! ## C210 -/

/-- The last vocabulary that was given and is not empty. -/
def lastGiven (l : List (Option (Vocab κ))) : Vocab κ :=
  match (l.filterMap id).reverse.find? (fun v => v.freq ≠ []) with
  | some v => v
  | none => Vocab.empty

theorem len_zero {v : Vocab κ} : Vocab.len v = 0 ↔ v.freq = [] := by
  unfold Vocab.len
  rw [keys_eq_nil]

theorem lastGiven_snoc (l : List (Option (Vocab κ))) (o : Option (Vocab κ)) :
    lastGiven (l ++ [o]) = orOwn (lastGiven l) o := by
  unfold lastGiven
  cases o with
  | none => simp [orOwn]
  | some v =>
    simp only [List.filterMap_append, List.filterMap_cons, id, List.filterMap_nil, List.reverse_append, List.reverse_cons,
      List.reverse_nil, List.nil_append, List.cons_append, orOwn]
    by_cases hv : v.freq = []
    · rw [if_pos (len_zero.2 hv), List.find?_cons_of_neg (by simp [hv])]
    · rw [if_neg (fun e => hv (len_zero.1 e)), List.find?_cons_of_pos (by simp [hv])]

/-- **C210**, exactly: a call uses the last row and the last column vocabulary that the constructor or any call so far was given.
(If the constructor got no row vocabulary, column vocabularies count from the first call with one: see `setVocabs`.) -/
theorem C210_exact (row col : Option (Vocab κ)) (hrow : (orOwn Vocab.empty row).freq ≠ [])
    (cs : List (Option (Vocab κ) × Option (Vocab κ))) :
    (afterCalls (newHandler row col) cs).rowv = lastGiven (row :: cs.map Prod.fst) ∧
      (afterCalls (newHandler row col) cs).colv = lastGiven (col :: cs.map Prod.snd) := by
  have h0 : ∀ o : Option (Vocab κ), lastGiven [o] = orOwn Vocab.empty o := fun o => by
    have := lastGiven_snoc ([] : List (Option (Vocab κ))) o
    simpa [lastGiven] using this
  have main : (afterCalls (newHandler row col) cs).rowv.freq ≠ [] ∧
      (afterCalls (newHandler row col) cs).rowv = lastGiven (row :: cs.map Prod.fst) ∧
      (afterCalls (newHandler row col) cs).colv = lastGiven (col :: cs.map Prod.snd) := by
    induction cs using List.reverseRecOn with
    | nil => exact ⟨hrow, (h0 row).symm, (h0 col).symm⟩
    | append_singleton cs c ih =>
      obtain ⟨i0, i1, i2⟩ := ih
      unfold afterCalls at i0 i1 i2 ⊢
      rw [List.foldl_append, List.foldl_cons, List.foldl_nil, List.map_append, List.map_append]
      simp only [List.map_cons, List.map_nil]
      rw [← List.cons_append, ← List.cons_append, lastGiven_snoc, lastGiven_snoc, ← i1, ← i2]
      have hne : (orOwn (cs.foldl (fun h c => setVocabs h c.1 c.2) (newHandler row col)).rowv c.1).freq ≠ [] := by
        unfold orOwn
        cases c.1 with
        | none => exact i0
        | some v =>
          simp only
          split
          · exact i0
          · next hv => exact fun e => hv (len_zero.2 e)
      have hs : setVocabs (cs.foldl (fun h c => setVocabs h c.1 c.2) (newHandler row col)) c.1 c.2
          = ⟨orOwn (cs.foldl (fun h c => setVocabs h c.1 c.2) (newHandler row col)).rowv c.1,
            orOwn (cs.foldl (fun h c => setVocabs h c.1 c.2) (newHandler row col)).colv c.2⟩ :=
        if_neg (fun e => hne (len_zero.1 e))
      rw [hs]
      exact ⟨hne, rfl, rfl⟩
  exact main.2

/-- **C210**, partial: a call that is given both vocabularies (not empty) returns what a new handler returns.  Missing: calls that
leave one out (`C210_false`). -/
theorem C210_partial (f : Formatter ℓ μ κ) (L R : Nat) (h : ColHandler κ) {row col : Vocab κ} (hr : row.freq ≠ []) (hc : col.freq ≠ [])
    (files : List (List ℓ)) (res : Option (Mtx κ Int)) :
    CallReturns f L R h (some row) (some col) files res ↔
      CallReturns f L R (newHandler none none) (some row) (some col) files res := by
  have hr' : ¬ Vocab.len row = 0 := fun e => hr (len_zero.1 e)
  have hc' : ¬ Vocab.len col = 0 := fun e => hc (len_zero.1 e)
  unfold CallReturns setVocabs
  simp only [orOwn, if_neg hr', if_neg hc']

/-- **C210** is false: after a call with a column vocabulary, a call without one still counts only the columns of that vocabulary. -/
theorem C210_false (f : Formatter ℓ μ κ) (L R : Nat) {row col : Vocab κ} (hr : row.freq ≠ []) (hc : col.freq ≠ [])
    (hr0 : Constructed row) (hc0 : Constructed col) (files : List (List ℓ)) (res : Option (Mtx κ Int))
    (h : CallReturns f L R (afterCalls (newHandler none none) [(some row, some col)]) (some row) none files res)
    (t c : κ) (hcol : c ∉ col.freq.keys) : countIn res t c = 0 := by
  have hr' : ¬ Vocab.len row = 0 := fun e => hr (len_zero.1 e)
  have hc' : ¬ Vocab.len col = 0 := fun e => hc (len_zero.1 e)
  have hv : setVocabs (afterCalls (newHandler none none) [(some row, some col)]) (some row) none = ⟨row, col⟩ := by
    simp only [afterCalls, List.foldl_cons, List.foldl_nil, setVocabs, newHandler, orOwn, if_neg hr', if_neg hc']
  unfold CallReturns at h
  rw [hv] at h
  rw [(h.isResult hr0 hc0).countIn t c]
  unfold totalCount
  rw [if_neg]
  · rfl
  · rintro ⟨-, e | e⟩
    · exact hc e
    · exact hcol e

/-- C210: the same call of a new handler counts all columns. -/
theorem C210_new (f : Formatter ℓ μ κ) (L R : Nat) {row : Vocab κ} (hr : row.freq ≠ []) (hr0 : Constructed row)
    (files : List (List ℓ)) (res : Option (Mtx κ Int)) (h : CallReturns f L R (newHandler none none) (some row) none files res)
    (t c : κ) : countIn res t c = if t ∈ row.freq.keys then ((files.map (fun file => pairCount f L R file t c)).sum : Nat) else 0 := by
  have hr' : ¬ Vocab.len row = 0 := fun e => hr (len_zero.1 e)
  have hv : setVocabs (newHandler none none) (some row) none = ⟨row, Vocab.empty⟩ := by
    simp only [setVocabs, newHandler, orOwn, if_neg hr']
  unfold CallReturns at h
  rw [hv] at h
  rw [(h.isResult hr0 (constructed_mk' [] Dict.WF_nil false)).countIn t c]
  unfold totalCount Wanted
  simp only [mk', true_or, and_true]

/-- Rows 1 and 2; a call with column 2 only, then without columns: the pair (2, 3) occurs in the file, and is not counted. -/
example : (setVocabs (afterCalls (newHandler none none) [(some rowv12, some ⟨[(2, 1)], true, false⟩)]) (some rowv12) none).colv.freq
      = [(2, 1)] ∧ pairCount fmt 1 1 [1, 2, 3, 4] 2 3 = 1 ∧
    lastGiven [some rowv12, none, some Vocab.empty] = rowv12 := by
  decide +kernel

end Verif.Cooc
