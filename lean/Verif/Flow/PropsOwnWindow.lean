import Verif.Flow.PropsSound

/-! # Property theorem C221 (the row of a token is decided by the words within its spans) -/

set_option linter.unusedSectionVars false

namespace Verif.Flow
open Verif.Py Verif.Vocab Verif.Corpus Verif.Window Verif.Engine Verif.Matrix

variable {ℓ μ κ φ ℓ' μ' φ' : Type} [LinearOrder κ]

/-! ### Specification -/

/-- The words within the left span of position `i`, from the nearest on. -/
def wordsBefore (L : Nat) (cs : List κ) (i : Nat) : List κ := (cs.take i).reverse.take L

/-- The words within the right span of position `i`, from the nearest on. -/
def wordsAfter (R : Nat) (cs : List κ) (i : Nat) : List κ := (cs.drop (i + 1)).take R

/-! ### Proof -/

theorem keptAt_words {keep : κ → Bool} {L R : Nat} {cs : List κ} {i : Nat} (hi : i < cs.length) (c : κ) (d : Int) :
    KeptAt keep L R cs i c d ↔ keep c = true ∧
      ((∃ k : Nat, (wordsBefore L cs i)[k]? = some c ∧ d = -((((wordsBefore L cs i).take (k + 1)).countP keep : Nat) : Int)) ∨
       ∃ k : Nat, (wordsAfter R cs i)[k]? = some c ∧ d = (((wordsAfter R cs i).take (k + 1)).countP keep : Nat)) := by
  have hb : ∀ k, k < L → k < i → (wordsBefore L cs i)[k]? = cs[i - 1 - k]? := by
    intro k hk hki
    unfold wordsBefore
    rw [List.getElem?_take_of_lt hk, List.getElem?_reverse (by rw [List.length_take]; omega), List.length_take,
      Nat.min_eq_left hi.le, List.getElem?_take_of_lt (by omega)]
  have hbl : ∀ k c, (wordsBefore L cs i)[k]? = some c → k < L ∧ k < i := by
    intro k c h
    have := lt_length_of_getElem? h
    unfold wordsBefore at this
    rw [List.length_take, List.length_reverse, List.length_take] at this
    omega
  have ha : ∀ k, k < R → (wordsAfter R cs i)[k]? = cs[i + 1 + k]? := by
    intro k hk
    unfold wordsAfter
    rw [List.getElem?_take_of_lt hk, List.getElem?_drop]
  have hal : ∀ k c, (wordsAfter R cs i)[k]? = some c → k < R := by
    intro k c h
    have := lt_length_of_getElem? h
    unfold wordsAfter at this
    rw [List.length_take] at this
    omega
  have cb : ∀ k, k < L → k < i → ((wordsBefore L cs i).take (k + 1)).countP keep = ((cs.take i).drop (i - 1 - k)).countP keep := by
    intro k hk hki
    unfold wordsBefore
    rw [List.take_take, Nat.min_eq_left (by omega), List.take_reverse, List.countP_reverse, List.length_take, Nat.min_eq_left hi.le,
      show i - (k + 1) = i - 1 - k by omega]
  have ca : ∀ k, k < R → ((wordsAfter R cs i).take (k + 1)).countP keep = ((cs.take (i + 1 + k + 1)).drop (i + 1)).countP keep := by
    intro k hk
    unfold wordsAfter
    rw [List.take_take, Nat.min_eq_left (by omega), List.drop_take, show i + 1 + k + 1 - (i + 1) = k + 1 by omega]
  unfold KeptAt
  refine and_congr_right (fun _ => ⟨?_, ?_⟩)
  · rintro ⟨j, hj, ⟨h1, h2, rfl⟩ | ⟨h1, h2, rfl⟩⟩
    · refine .inl ⟨i - 1 - j, ?_, ?_⟩
      · rw [hb _ (by omega) (by omega), show i - 1 - (i - 1 - j) = j by omega, hj]
      · rw [cb _ (by omega) (by omega), show i - 1 - (i - 1 - j) = j by omega]
    · refine .inr ⟨j - i - 1, ?_, ?_⟩
      · rw [ha _ (by omega), show i + 1 + (j - i - 1) = j by omega, hj]
      · rw [ca _ (by omega), show i + 1 + (j - i - 1) + 1 = j + 1 by omega]
  · rintro (⟨k, hk, rfl⟩ | ⟨k, hk, rfl⟩)
    · obtain ⟨h1, h2⟩ := hbl k c hk
      refine ⟨i - 1 - k, by rw [← hb k h1 h2, hk], .inl ⟨by omega, by omega, by rw [cb k h1 h2]⟩⟩
    · have h1 := hal k c hk
      refine ⟨i + 1 + k, by rw [← ha k h1, hk], .inr ⟨by omega, by omega, by rw [ca k h1]⟩⟩

/-! ## C221 -/

/-- **C221.** Whatever the files, queries, formats, numbers of workers and schedules of two calls of `retrieve_tokens`, even if workers
die: two rows of tokens with the same words within the spans, in the same order, have the same entries. -/
theorem C221_row {f : Formatter ℓ μ κ} {g : Formatter ℓ' μ' κ} {L R : Nat} (hR : R ≠ 0) {colv : Vocab κ}
    {qs qs' : List κ} (hq : qs.Nodup) (hq' : qs'.Nodup) {files : List (φ × List ℓ)} {files' : List (φ' × List ℓ')} {W W' : Nat}
    {as as' : List Action} {s : State (φ × List ℓ) (Bool × Toks φ μ κ) (TokRes (Toks φ μ κ))}
    {s' : State (φ' × List ℓ') (Bool × Toks φ' μ' κ) (TokRes (Toks φ' μ' κ))}
    (h : Engine.exec (retrieveProg f L R colv qs) as (Engine.start (retrieveProg f L R colv qs) W files) = some s)
    (h' : Engine.exec (retrieveProg g L R colv qs') as' (Engine.start (retrieveProg g L R colv qs') W' files') = some s')
    {name : φ → μ → Nat → κ} {name' : φ' → μ' → Nat → κ} (hname : (occNames f name qs files).Nodup)
    (hname' : (occNames g name' qs' files').Nodup) {order order' : List κ → List κ} (horder : ∀ l, (order l).Perm l)
    (horder' : ∀ l, (order' l).Perm l) {m m' : Mtx κ Int} (hm : retrieve f name order files.length s = some (.ok m))
    (hm' : retrieve g name' order' files'.length s' = some (.ok m'))
    {F : φ × List ℓ} {xs : List (μ × Nat)} {i : Nat} {x : μ × Nat} (ho : IsOcc f qs files F xs i x) (hin : name F.1 x.1 x.2 ∈ m.rows)
    {F' : φ' × List ℓ'} {xs' : List (μ' × Nat)} {i' : Nat} {x' : μ' × Nat} (ho' : IsOcc g qs' files' F' xs' i' x')
    (hin' : name' F'.1 x'.1 x'.2 ∈ m'.rows)
    (hbefore : wordsBefore L (collocsOf g xs') i' = wordsBefore L (collocsOf f xs) i)
    (hafter : wordsAfter R (collocsOf g xs') i' = wordsAfter R (collocsOf f xs) i) (c : κ) :
    storedEntry m' (name' F'.1 x'.1 x'.2) c = storedEntry m (name F.1 x.1 x.2) c := by
  obtain ⟨-, -, -, e⟩ := C165_sound hR hq h hname horder hm
  obtain ⟨-, -, -, e'⟩ := C165_sound hR hq' h' hname' horder' hm'
  have hi : i < (collocsOf f xs).length := by
    have := lt_length_of_getElem? ho.pos
    simpa [collocsOf] using this
  have hi' : i' < (collocsOf g xs').length := by
    have := lt_length_of_getElem? ho'.pos
    simpa [collocsOf] using this
  obtain ⟨a1, a2⟩ := e F xs i x ho hin c
  obtain ⟨b1, b2⟩ := e' F' xs' i' x' ho' hin' c
  have hk : ∀ d, KeptAt (keepOf (handlerVocab colv)) L R (collocsOf g xs') i' c d ↔
      KeptAt (keepOf (handlerVocab colv)) L R (collocsOf f xs) i c d := fun d => by
    rw [keptAt_words hi', keptAt_words hi, hbefore, hafter]
  cases hs : storedEntry m (name F.1 x.1 x.2) c with
  | none => exact b1.2 (fun d hd => a1.1 hs d ((hk d).1 hd))
  | some d =>
    obtain ⟨p1, p2⟩ := a2 d hs
    cases hs' : storedEntry m' (name' F'.1 x'.1 x'.2) c with
    | none => exact absurd ((hk d).2 p1) (b1.1 hs' d)
    | some d' =>
      obtain ⟨q1, q2⟩ := b2 d' hs'
      have := p2 d' ((hk d').1 q1)
      have := q2 d ((hk d).2 p1)
      rw [le_antisymm ‹d' ≤ d› ‹d ≤ d'›]

/-- Non-vacuity: two files with the same words around a token, one of them with a further line; the token is asked for alone and
together with another. -/
example : wordsBefore 2 (collocsOf fmt [(1, 1), (2, 2), (3, 3)]) 0 = wordsBefore 2 (collocsOf fmt [(1, 1), (2, 2), (3, 3), (4, 4)]) 0 ∧
    wordsAfter 2 (collocsOf fmt [(1, 1), (2, 2), (3, 3)]) 0 = wordsAfter 2 (collocsOf fmt [(1, 1), (2, 2), (3, 3), (4, 4)]) 0 ∧
    IsOcc fmt [1] [((), [1, 2, 3])] ((), [1, 2, 3]) [(1, 1), (2, 2), (3, 3)] 0 (1, 1) ∧
    IsOcc fmt [1, 4] [((), [1, 2, 3, 4])] ((), [1, 2, 3, 4]) [(1, 1), (2, 2), (3, 3), (4, 4)] 0 (1, 1) ∧
    (occNames fmt lineName [1, 4] [((), [1, 2, 3, 4])]).Nodup ∧
    ∃ s m, Engine.exec (retrieveProg fmt 2 2 Vocab.empty [1, 4]) oneRun
      (Engine.start (retrieveProg fmt 2 2 Vocab.empty [1, 4]) 1 [((), [1, 2, 3, 4])]) = some s ∧
    retrieve fmt lineName id 1 s = some (.ok m) ∧ 101 ∈ m.rows ∧ storedEntry m 101 3 = some 2 := by
  refine ⟨rfl, rfl, ⟨by simp, by decide +kernel, rfl, by decide⟩, ⟨by simp, by decide +kernel, rfl, by decide⟩, by decide +kernel, ?_⟩
  refine ⟨_, _, rfl, rfl, by decide +kernel, by decide +kernel⟩

end Verif.Flow
