import Verif.Cooc.PropsBounds
import Verif.Matrix.PropsToken

/-! # Property theorem C190 (row sums of co-occurrence matrices) -/

set_option linter.unusedSectionVars false

namespace Verif.Cooc
open Verif.Py Verif.Vocab Verif.Corpus Verif.Window Verif.Engine Verif.Matrix

variable {ℓ μ κ : Type} [LinearOrder κ]

/-- How many neighbours place `i` of `n` places has: at most `L` before and at most `R` after it. -/
def neighbours (L R n i : Nat) : Nat := min i L + min (n - 1 - i) R

/-- The neighbours of all lines of type `t`, segment by segment. -/
def neighboursOf (f : Formatter ℓ μ κ) (L R : Nat) (files : List (List ℓ)) (t : κ) : Nat :=
  (files.map (fun file => ((segTexts f file).map (fun xs =>
    ∑ i ∈ Finset.range xs.length, if xs[i]?.map f.getType = some t then neighbours L R xs.length i else 0)).sum)).sum

/-- The same without the last lines of segments of at most `R` lines. -/
def neighboursCounted (f : Formatter ℓ μ κ) (L R : Nat) (files : List (List ℓ)) (t : κ) : Nat :=
  (files.map (fun file => ((segTexts f file).map (fun xs =>
    ∑ i ∈ Finset.range xs.length,
      if (xs.length ≤ R → i + 1 < xs.length) ∧ xs[i]?.map f.getType = some t then neighbours L R xs.length i else 0)).sum)).sum

theorem card_neighbours (L R : Nat) {n i : Nat} (hi : i < n) :
    ((Finset.range n).filter (fun j => i ≠ j ∧ i ≤ j + L ∧ j ≤ i + R)).card = neighbours L R n i := by
  have : (Finset.range n).filter (fun j => i ≠ j ∧ i ≤ j + L ∧ j ≤ i + R) = (Finset.Icc (i - L) (min (n - 1) (i + R))).erase i := by
    ext j
    simp only [Finset.mem_filter, Finset.mem_range, Finset.mem_erase, Finset.mem_Icc]
    omega
  rw [this, Finset.card_erase_of_mem (by rw [Finset.mem_Icc]; omega), Nat.card_Icc]
  unfold neighbours
  omega

theorem section_total {α : Type} (gt gc : α → κ) (L R : Nat) (xs : List α) (t : κ) {cs : List κ} (hcs : cs.Nodup)
    (hall : ∀ c, c ∉ cs → (Finset.range xs.length ×ˢ Finset.range xs.length).filter (fun p : Nat × Nat =>
      (xs.length ≤ R → p.1 + 1 < xs.length) ∧ p.1 ≠ p.2 ∧ p.1 ≤ p.2 + L ∧ p.2 ≤ p.1 + R ∧
      xs[p.1]?.map gt = some t ∧ xs[p.2]?.map gc = some c) = ∅) :
    (cs.map (fun c => ((Finset.range xs.length ×ˢ Finset.range xs.length).filter (fun p : Nat × Nat =>
      (xs.length ≤ R → p.1 + 1 < xs.length) ∧ p.1 ≠ p.2 ∧ p.1 ≤ p.2 + L ∧ p.2 ≤ p.1 + R ∧
      xs[p.1]?.map gt = some t ∧ xs[p.2]?.map gc = some c)).card)).sum =
    ∑ i ∈ Finset.range xs.length,
      if (xs.length ≤ R → i + 1 < xs.length) ∧ xs[i]?.map gt = some t then neighbours L R xs.length i else 0 := by
  rw [← List.sum_toFinset _ hcs, ← Finset.card_biUnion]
  · have e : cs.toFinset.biUnion (fun c => (Finset.range xs.length ×ˢ Finset.range xs.length).filter (fun p : Nat × Nat =>
        (xs.length ≤ R → p.1 + 1 < xs.length) ∧ p.1 ≠ p.2 ∧ p.1 ≤ p.2 + L ∧ p.2 ≤ p.1 + R ∧
        xs[p.1]?.map gt = some t ∧ xs[p.2]?.map gc = some c)) =
        (Finset.range xs.length ×ˢ Finset.range xs.length).filter (fun p : Nat × Nat =>
          ((xs.length ≤ R → p.1 + 1 < xs.length) ∧ xs[p.1]?.map gt = some t) ∧ p.1 ≠ p.2 ∧ p.1 ≤ p.2 + L ∧ p.2 ≤ p.1 + R) := by
      ext p
      simp only [Finset.mem_biUnion, Finset.mem_filter, Finset.mem_product, Finset.mem_range, List.mem_toFinset]
      constructor
      · rintro ⟨c, _, h0, h1, h2, h3, h4, h5, _⟩
        exact ⟨h0, ⟨h1, h5⟩, h2, h3, h4⟩
      · rintro ⟨h0, ⟨h1, h5⟩, h2, h3, h4⟩
        have hp : (xs[p.2]?.map gc) = some (gc (xs[p.2]'h0.2)) := by rw [List.getElem?_eq_getElem h0.2]; rfl
        by_contra hno
        have hc : gc (xs[p.2]'h0.2) ∉ cs := fun hc => hno ⟨_, hc, h0, h1, h2, h3, h4, h5, hp⟩
        have := hall _ hc
        have hmem : p ∈ (∅ : Finset (Nat × Nat)) := by
          rw [← this]
          simp only [Finset.mem_filter, Finset.mem_product, Finset.mem_range]
          exact ⟨h0, h1, h2, h3, h4, h5, hp⟩
        exact absurd hmem (Finset.notMem_empty _)
    rw [e, Finset.card_filter, Finset.sum_product]
    refine Finset.sum_congr rfl fun i hi => ?_
    by_cases hA : (xs.length ≤ R → i + 1 < xs.length) ∧ xs[i]?.map gt = some t
    · rw [if_pos hA, ← card_neighbours L R (Finset.mem_range.1 hi), Finset.card_filter]
      refine Finset.sum_congr rfl fun j _ => ?_
      exact if_congr (and_iff_right hA) rfl rfl
    · rw [if_neg hA]
      refine Finset.sum_eq_zero fun j _ => if_neg fun h => hA h.1
  · intro c _ c' _ hne
    refine Finset.disjoint_left.2 (fun p h1 h2 => hne ?_)
    have a := (Finset.mem_filter.1 h1).2.2.2.2.2.2
    have b := (Finset.mem_filter.1 h2).2.2.2.2.2.2
    exact Option.some.inj (a.symm.trans b)

theorem sum_eq_zero_mem {l : List Nat} (h : l.sum = 0) : ∀ x ∈ l, x = 0 := by
  intro x hx
  have := List.single_le_sum (fun _ _ => Nat.zero_le _) x hx
  omega

theorem total_exact (f : Formatter ℓ μ κ) (L R : Nat) (files : List (List ℓ)) (t : κ) {cs : List κ} (hcs : cs.Nodup)
    (hall : ∀ c, c ∉ cs → (files.map (fun file => pairCount f L R file t c)).sum = 0) :
    (cs.map (fun c => (files.map (fun file => pairCount f L R file t c)).sum)).sum = neighboursCounted f L R files t := by
  rw [sum_map_swap]
  unfold neighboursCounted
  congr 1
  refine List.map_congr_left fun file hfile => ?_
  unfold pairCount
  rw [sum_map_swap]
  congr 1
  refine List.map_congr_left fun xs hxs => ?_
  refine section_total f.getType f.getColloc L R xs t hcs fun c hc => ?_
  have h1 := sum_eq_zero_mem (hall c hc) _ (List.mem_map.2 ⟨file, hfile, rfl⟩)
  unfold pairCount at h1
  have h2 := sum_eq_zero_mem h1 _ (List.mem_map.2 ⟨xs, hxs, rfl⟩)
  exact Finset.card_eq_zero.1 h2

/-- **C190**, exact: without a column vocabulary the entries of the row of a type add up to the number of neighbours of its
occurrences that are counted as targets. -/
theorem C190_exact {f : Formatter ℓ μ κ} {L R : Nat} {rowv colv : Vocab κ} (hrw : Constructed rowv) (hc : Constructed colv)
    (hno : colv.freq = []) {files : List (List ℓ)} {m : Mtx κ Int} (h : Returns f L R rowv colv files (some m)) {t : κ}
    (ht : t ∈ rowv.freq.keys) : (m.cols.map (fun c => entry m t c)).sum = neighboursCounted f L R files t := by
  have k := (h.isResult hrw hc).1
  have hw : ∀ c, totalCount f L R rowv colv files t c = (files.map (fun file => pairCount f L R file t c)).sum := fun c =>
    if_pos ⟨ht, .inl hno⟩
  have e : (m.cols.map (fun c => entry m t c)).sum = ((m.cols.map (fun c => (files.map (fun file => pairCount f L R file t c)).sum)).sum : Nat) := by
    rw [cast_sum, List.map_map]
    refine congrArg _ (List.map_congr_left fun c _ => ?_)
    rw [k.entry, hw]
    rfl
  rw [e, total_exact f L R files t k.valid.cols fun c hcm => ?_]
  by_contra hpos
  refine hcm ((k.cols c).2 ?_)
  rw [if_pos hno]
  exact ⟨t, by rw [hw]; omega⟩

/-- **C190** (partial): without a column vocabulary, `sum(axis=1)` of the matrix gives for every type how many neighbours its
occurrences have.  Missing: files with segments of 2 to `R` lines (`C190_false`), and matrices of one row (see C53). -/
theorem C190_partial {f : Formatter ℓ μ κ} {L R : Nat} {rowv colv : Vocab κ} (hrw : Constructed rowv) (hc : Constructed colv)
    (hno : colv.freq = []) {files : List (List ℓ)} (hseg : ∀ file ∈ files, ∀ xs ∈ segTexts f file, xs.length ≤ 1 ∨ R < xs.length)
    {m : Mtx κ Int} (h : Returns f L R rowv colv files (some m)) (h1 : m.rows.length ≠ 1) :
    ∃ d, rowSums m = .ok d ∧ ∀ t ∈ rowv.freq.keys, d.get? t = some (neighboursOf f L R files t : Int) := by
  have k := (h.isResult hrw hc).1
  obtain ⟨d, hd, _, hs⟩ := C53_row_sums_partial k.valid h1
  refine ⟨d, hd, fun t ht => ?_⟩
  have hmem : t ∈ m.rows := by rw [k.rows]; exact (mem_itemList rowv t).2 ht
  rw [hs t hmem, C190_exact hrw hc hno h ht]
  congr 2
  unfold neighboursCounted neighboursOf
  congr 1
  refine List.map_congr_left fun file hfile => ?_
  congr 1
  refine List.map_congr_left fun xs hxs => ?_
  refine Finset.sum_congr rfl fun i hi => ?_
  have hi := Finset.mem_range.1 hi
  by_cases hA : xs[i]?.map f.getType = some t
  · rw [if_pos hA]
    by_cases hB : xs.length ≤ R → i + 1 < xs.length
    · rw [if_pos ⟨hB, hA⟩]
    · rw [if_neg (fun h => hB h.1)]
      unfold neighbours
      rcases hseg file hfile xs hxs with h | h <;> omega
  · rw [if_neg hA, if_neg (fun h => hA h.2)]

/-- **C190 is false** as it stands: with spans (1, 2) and two lines the neighbour of the second line is not counted. -/
theorem C190_false : ∃ m d, Returns fmt 1 2 rowv12 Vocab.empty [[1, 2]] (some m) ∧ rowSums m = .ok d ∧
    d.get? 2 = some 0 ∧ neighboursOf fmt 1 2 [[1, 2]] 2 = 1 := by
  refine ⟨⟨.sp ⟨.csr, 2, 1, [((0, 0), 1)]⟩, [1, 2], [2]⟩, [(1, 1), (2, 0)], ?_, by decide, by decide, by decide⟩
  refine ⟨1, one, _, le_refl _, by intro i; simp [one], rfl, ⟨rfl, ?_⟩, rfl⟩
  intro w hw
  exact Or.inl ⟨_, List.mem_singleton.1 hw⟩

/-- Spans (1, 1), two segments: the hypotheses of `C190_partial`, and the neighbours of 1. -/
example : (∀ file ∈ [[1, 2, 10, 1, 2, 1]], ∀ xs ∈ segTexts fmt file, xs.length ≤ 1 ∨ 1 < xs.length) ∧ Constructed rowv12 ∧
    neighboursOf fmt 1 1 [[1, 2, 10, 1, 2, 1]] 1 = 3 ∧ neighboursOf fmt 1 1 [[1, 2, 10, 1, 2, 1]] 2 = 3 := by
  refine ⟨by decide, ⟨by unfold Dict.WF; decide, rfl⟩, by decide, by decide⟩

end Verif.Cooc
