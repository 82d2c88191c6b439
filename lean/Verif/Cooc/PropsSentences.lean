import Verif.Cooc.PropsBounds

/-!
# C216: only the sentences matter, not their order, their files, or how the lines are written
-/

set_option linter.unusedSectionVars false

namespace Verif.Cooc
open Verif.Py Verif.Vocab Verif.Corpus Verif.Window Verif.Engine Verif.Matrix

variable {ℓ μ ℓ' μ' κ : Type} [LinearOrder κ]

/-! ### Specification -/

/-- The sentences of a corpus: the segments with at least one word, as types and collocates of their words. -/
def sentencesOf (f : Formatter ℓ μ κ) (files : List (List ℓ)) : List (List (κ × κ)) :=
  (files.flatMap (fun file => (segTexts f file).map (List.map (fun x => (f.getType x, f.getColloc x))))).filter (fun zs => !zs.isEmpty)

/-! ### Proof -/

/-- The pairs counted in one sentence. -/
def pairsOf (L R : Nat) (t c : κ) (zs : List (κ × κ)) : Nat :=
  ((Finset.range zs.length ×ˢ Finset.range zs.length).filter (fun p : Nat × Nat =>
    (zs.length ≤ R → p.1 + 1 < zs.length) ∧ p.1 ≠ p.2 ∧ p.1 ≤ p.2 + L ∧ p.2 ≤ p.1 + R ∧
    zs[p.1]?.map Prod.fst = some t ∧ zs[p.2]?.map Prod.snd = some c)).card

theorem sum_nonempty {α : Type} (g : List α → Nat) (h0 : g [] = 0) (l : List (List α)) :
    ((l.filter (fun zs => !zs.isEmpty)).map g).sum = (l.map g).sum := by
  induction l with
  | nil => rfl
  | cons zs l ih =>
    cases zs with
    | nil => simpa [h0] using ih
    | cons z zs => simpa using ih

theorem pairCounts_sentences (f : Formatter ℓ μ κ) (L R : Nat) (files : List (List ℓ)) (t c : κ) :
    (files.map (fun file => pairCount f L R file t c)).sum = ((sentencesOf f files).map (pairsOf L R t c)).sum := by
  unfold sentencesOf
  rw [sum_nonempty _ (by simp [pairsOf])]
  induction files with
  | nil => rfl
  | cons file files ih =>
    rw [List.map_cons, List.sum_cons, List.flatMap_cons, List.map_append, List.sum_append, ih, List.map_map]
    congr 1
    unfold pairCount
    congr 1
    refine List.map_congr_left (fun xs _ => ?_)
    simp only [Function.comp, pairsOf, List.length_map, List.getElem?_map, Option.map_map]
    rfl

theorem totalCount_sentences (f : Formatter ℓ μ κ) (L R : Nat) (rowv colv : Vocab κ) (files : List (List ℓ)) (t c : κ) :
    totalCount f L R rowv colv files t c = if Wanted rowv colv t c then ((sentencesOf f files).map (pairsOf L R t c)).sum else 0 := by
  unfold totalCount
  rw [pairCounts_sentences]

theorem occurrences_sentences (f : Formatter ℓ μ κ) (files : List (List ℓ)) (k : κ) :
    (files.map (occurrences f k)).sum = ((sentencesOf f files).map (List.countP (fun z => decide (z.1 = k)))).sum := by
  unfold sentencesOf
  rw [sum_nonempty _ rfl]
  induction files with
  | nil => rfl
  | cons file files ih =>
    rw [List.map_cons, List.sum_cons, List.flatMap_cons, List.map_append, List.sum_append, ih, List.map_map]
    congr 1
    have h1 : occurrences f k file = (file.filterMap f.matchLine).countP (fun x => decide (f.getType x = k)) := by
      unfold occurrences
      rw [List.countP_filterMap]
      refine List.countP_congr (fun l _ => ?_)
      cases f.matchLine l <;> simp
    rw [h1, ← segments_flatten, List.countP_map, List.countP_flatten]
    unfold segTexts
    rw [List.map_map]
    congr 1
    refine List.map_congr_left (fun xs _ => ?_)
    simp only [Function.comp, List.countP_map]
    rfl

/-- **C216**, counts: two corpora, perhaps in different formats, whose sentences are the same up to their order, give the same co-occurrence
matrix: the same rows and columns in the same order and the same counts; or none at all. -/
theorem C216_counts {f : Formatter ℓ μ κ} {g : Formatter ℓ' μ' κ} {L R : Nat} {rowv colv : Vocab κ} (hrw : Constructed rowv) (hc : Constructed colv)
    {a : List (List ℓ)} {b : List (List ℓ')} (hab : (sentencesOf f a).Perm (sentencesOf g b)) {ra rb : Option (Mtx κ Int)}
    (ha : Returns f L R rowv colv a ra) (hb : Returns g L R rowv colv b rb) :
    (ra = none ∧ rb = none) ∨ ∃ m n, ra = some m ∧ rb = some n ∧ SameNamed m n := by
  have ka := ha.isResult hrw hc
  have kb := hb.isResult hrw hc
  have e : ∀ t c, totalCount f L R rowv colv a t c = totalCount g L R rowv colv b t c := by
    intro t c
    rw [totalCount_sentences, totalCount_sentences, (hab.map _).sum_eq]
  cases ra with
  | none =>
    cases rb with
    | none => exact .inl ⟨rfl, rfl⟩
    | some n =>
      obtain ⟨t, c, hpos⟩ := kb.2
      have := ka t c
      rw [← e] at hpos
      omega
  | some m =>
    cases rb with
    | none =>
      obtain ⟨t, c, hpos⟩ := ka.2
      have := kb t c
      rw [e] at hpos
      omega
    | some n =>
      refine .inr ⟨m, n, rfl, rfl, ka.1.rows.trans kb.1.rows.symm, ?_, fun t c => by rw [ka.1.entry, kb.1.entry, e]⟩
      refine eq_of_perm_of_pairwise (fun a _ b _ x y => le_antisymm x y) ?_ ka.1.sorted kb.1.sorted
      refine (List.perm_ext_iff_of_nodup ka.1.valid.cols kb.1.valid.cols).2 (fun c => ?_)
      rw [ka.1.cols, kb.1.cols]
      simp only [e]

/-- **C216**, frequencies: they give the same frequency list. -/
theorem C216_freq {f : Formatter ℓ μ κ} {g : Formatter ℓ' μ' κ} {a : List (List ℓ)} {b : List (List ℓ')}
    (hab : (sentencesOf f a).Perm (sentencesOf g b)) {va vb : Vocab κ} (ha : ReturnsFreq f a va) (hb : ReturnsFreq g b vb) (k : κ) :
    va.freq.get? k = vb.freq.get? k := by
  obtain ⟨W1, as1, s1, r1, a1, a2, a3, rfl⟩ := ha
  obtain ⟨W2, as2, s2, r2, b1, b2, b3, rfl⟩ := hb
  rw [C01_freq_list f W1 a as1 s1 r1 a1 a2 a3, C01_freq_list g W2 b as2 s2 r2 b1 b2 b3, occurrences_sentences, occurrences_sentences,
    (hab.map _).sum_eq]

/-- Non-vacuity: a file of two sentences, and the same sentences in two files, in the other order, with other line numbers and empty
segments; and a format in which words are written as signed numbers and a segment ends at zero. -/
example : (sentencesOf fmt [[1, 2, 10, 3, 1]]).Perm (sentencesOf fmt [[10, 23, 11, 20], [31, 2, 10, 10]]) ∧
    (sentencesOf fmt [[1, 2, 10, 3, 1]]).Perm
      (sentencesOf (⟨fun z => if z = 0 then none else some z.toNat, fun z => z == 0, fun n => n, fun n => n⟩ : Formatter Int Nat Nat)
        [[3, 1, 0, 1, 2]]) := by
  have h0 : sentencesOf fmt [[1, 2, 10, 3, 1]] = [[(1, 1), (2, 2)], [(3, 3), (1, 1)]] := by decide +kernel
  have h1 : sentencesOf fmt [[10, 23, 11, 20], [31, 2, 10, 10]] = [[(3, 3), (1, 1)], [(1, 1), (2, 2)]] := by decide +kernel
  have h2 : sentencesOf (⟨fun z => if z = 0 then none else some z.toNat, fun z => z == 0, fun n => n, fun n => n⟩ : Formatter Int Nat Nat)
      [[3, 1, 0, 1, 2]] = [[(3, 3), (1, 1)], [(1, 1), (2, 2)]] := by decide +kernel
  rw [h0, h1, h2]
  exact ⟨List.Perm.swap _ _ _, List.Perm.swap _ _ _⟩

end Verif.Cooc
