import Verif.Cooc.PropsTotals
import Verif.Cooc.PropsSides

/-! # Property theorems C223 (the sum of all counts) and C224 (column sums) -/

set_option linter.unusedSectionVars false

namespace Verif.Cooc
open Verif.Py Verif.Vocab Verif.Corpus Verif.Window Verif.Engine Verif.Matrix

variable {ℓ μ κ : Type} [LinearOrder κ]

/-! ### Specification -/

/-- Pairs of places of a segment of `n` lines within the spans: there are `n - k` pairs at distance `k`. -/
def pairsWithin (L R n : Nat) : Nat := ∑ k ∈ Finset.Icc 1 L, (n - k) + ∑ k ∈ Finset.Icc 1 R, (n - k)

/-- The last line of a segment of at most `R` lines is no target: its neighbours before it are missing. -/
def pairsMissed (L R n : Nat) : Nat := if n ≤ R then min (n - 1) L else 0

/-- The lengths of all segments of all files. -/
def segLengths (f : Formatter ℓ μ κ) (files : List (List ℓ)) : List Nat :=
  files.flatMap (fun file => (segTexts f file).map List.length)

/-- Every type of the files is in the row vocabulary. -/
def AllTypes (f : Formatter ℓ μ κ) (rowv : Vocab κ) (files : List (List ℓ)) : Prop :=
  ∀ file ∈ files, ∀ xs ∈ segTexts f file, ∀ x ∈ xs, f.getType x ∈ rowv.freq.keys

/-- The claim. -/
def C223_claim (f : Formatter ℓ μ κ) (L R : Nat) (rowv colv : Vocab κ) (files : List (List ℓ)) : Prop :=
  ∀ m, Returns f L R rowv colv files (some m) → total m = (((segLengths f files).map (pairsWithin L R)).sum : Nat)

/-! ### Proof -/

theorem sum_min_range (L n : Nat) : ∑ i ∈ Finset.range n, min i L = ∑ k ∈ Finset.Icc 1 L, (n - k) := by
  induction n with
  | zero => simp
  | succ n ih =>
    rw [Finset.sum_range_succ, ih]
    have : ∀ k ∈ Finset.Icc 1 L, n + 1 - k = (n - k) + if k ≤ n then 1 else 0 := by
      intro k hk
      have := Finset.mem_Icc.1 hk
      split <;> omega
    rw [Finset.sum_congr rfl this, Finset.sum_add_distrib]
    congr 1
    rw [← Finset.card_filter]
    have e : (Finset.Icc 1 L).filter (fun k => k ≤ n) = Finset.Icc 1 (min n L) := by
      ext k
      simp only [Finset.mem_filter, Finset.mem_Icc]
      omega
    rw [e, Nat.card_Icc]
    omega

theorem sum_neighbours (L R n : Nat) : ∑ i ∈ Finset.range n, neighbours L R n i = pairsWithin L R n := by
  unfold neighbours pairsWithin
  rw [Finset.sum_add_distrib, sum_min_range]
  congr 1
  rw [← sum_min_range R n, ← Finset.sum_range_reflect (fun i => min i R) n]

/-- The neighbours of the targets of one segment. -/
theorem sum_counted_places (L R n : Nat) :
    (∑ i ∈ Finset.range n, if n ≤ R → i + 1 < n then neighbours L R n i else 0) + pairsMissed L R n = pairsWithin L R n := by
  rw [← sum_neighbours]
  unfold pairsMissed
  by_cases h : n ≤ R
  · rw [if_pos h]
    cases n with
    | zero => simp
    | succ n =>
      rw [Finset.sum_range_succ, Finset.sum_range_succ, if_neg (by omega), Nat.add_zero]
      congr 1
      · refine Finset.sum_congr rfl fun i hi => if_pos fun _ => ?_
        have := Finset.mem_range.1 hi
        omega
      · unfold neighbours
        simp
  · rw [if_neg h, Nat.add_zero]
    exact Finset.sum_congr rfl fun i _ => if_pos fun h' => absurd h' h

/-- Summed over all types, the lines of a segment are met once each. -/
theorem sum_types {α : Type} (gt : α → κ) (xs : List α) {ts : List κ} (hts : ts.Nodup) (hall : ∀ x ∈ xs, gt x ∈ ts) (P : Nat → Prop)
    [DecidablePred P] (w : Nat → Nat) :
    (ts.map (fun t => ∑ i ∈ Finset.range xs.length, if P i ∧ xs[i]?.map gt = some t then w i else 0)).sum =
      ∑ i ∈ Finset.range xs.length, if P i then w i else 0 := by
  rw [← List.sum_toFinset _ hts, Finset.sum_comm]
  refine Finset.sum_congr rfl fun i hi => ?_
  have hi := Finset.mem_range.1 hi
  by_cases hP : P i
  · rw [if_pos hP, List.getElem?_eq_getElem hi]
    rw [Finset.sum_eq_single (gt xs[i])]
    · simp [hP]
    · intro b _ hb
      rw [if_neg]
      rintro ⟨_, h⟩
      exact hb (Option.some.inj h).symm
    · intro hn
      exact absurd (List.mem_toFinset.2 (hall _ (List.getElem_mem hi))) hn
  · rw [if_neg hP]
    exact Finset.sum_eq_zero fun t _ => if_neg fun h => hP h.1

theorem sum_nested {α β : Type} (files : List α) (g : α → List β) (w : β → Nat) :
    (files.map (fun a => ((g a).map w).sum)).sum = ((files.flatMap g).map w).sum := by
  induction files with
  | nil => rfl
  | cons a files ih => simp [ih]

theorem sum_neighboursCounted (f : Formatter ℓ μ κ) (L R : Nat) (files : List (List ℓ)) {ts : List κ} (hts : ts.Nodup)
    (hall : ∀ file ∈ files, ∀ xs ∈ segTexts f file, ∀ x ∈ xs, f.getType x ∈ ts) :
    (ts.map (neighboursCounted f L R files)).sum + ((segLengths f files).map (pairsMissed L R)).sum =
      ((segLengths f files).map (pairsWithin L R)).sum := by
  unfold segLengths
  rw [← sum_nested, ← sum_nested]
  have e : (ts.map (neighboursCounted f L R files)).sum = (files.map (fun file => ((segTexts f file).map (fun xs =>
      ∑ i ∈ Finset.range xs.length, if xs.length ≤ R → i + 1 < xs.length then neighbours L R xs.length i else 0)).sum)).sum := by
    unfold neighboursCounted
    rw [sum_map_swap]
    refine congrArg _ (List.map_congr_left fun file hf => ?_)
    rw [sum_map_swap]
    refine congrArg _ (List.map_congr_left fun xs hx => ?_)
    exact sum_types f.getType xs hts (hall file hf xs hx) (fun i => xs.length ≤ R → i + 1 < xs.length) _
  rw [e]
  have := sum_split (l := files)
    (a := fun file => ((segTexts f file).map (fun xs =>
      ∑ i ∈ Finset.range xs.length, if xs.length ≤ R → i + 1 < xs.length then neighbours L R xs.length i else 0)).sum)
    (b := fun file => (((segTexts f file).map List.length).map (pairsMissed L R)).sum)
    (g := fun file => (((segTexts f file).map List.length).map (pairsWithin L R)).sum) (h := fun _ => 0) (fun file _ => by
      have := sum_split (l := segTexts f file)
        (a := fun xs => ∑ i ∈ Finset.range xs.length, if xs.length ≤ R → i + 1 < xs.length then neighbours L R xs.length i else 0)
        (b := fun xs => pairsMissed L R xs.length) (g := fun xs => pairsWithin L R xs.length) (h := fun _ => 0)
        (fun xs _ => by rw [sum_counted_places, Nat.add_zero])
      simpa [List.map_map, Function.comp_def] using this)
  simpa using this

/-! ## C223 -/

/-- **C223**, exactly: if all types are rows and there is no column vocabulary, the sum of all counts is decided by the lengths of the
segments: `n - k` pairs for every distance `k` within a span, without those before the last line of a segment of at most `R` lines. -/
theorem C223_exact {f : Formatter ℓ μ κ} {L R : Nat} {rowv colv : Vocab κ} (hrw : Constructed rowv) (hc : Constructed colv)
    (hno : colv.freq = []) {files : List (List ℓ)} (hall : AllTypes f rowv files) {m : Mtx κ Int}
    (h : Returns f L R rowv colv files (some m)) :
    total m + (((segLengths f files).map (pairsMissed L R)).sum : Nat) = (((segLengths f files).map (pairsWithin L R)).sum : Nat) := by
  have k := (h.isResult hrw hc).1
  rw [(C53_total k.valid).1]
  have e : m.rows.map (fun r => (m.cols.map (fun c => entry m r c)).sum) =
      m.rows.map (fun t => ((neighboursCounted f L R files t : Nat) : Int)) := by
    refine List.map_congr_left fun t ht => ?_
    rw [k.rows] at ht
    exact C190_exact hrw hc hno h ((mem_itemList rowv t).1 ht)
  have hs := sum_neighboursCounted f L R files k.valid.rows (fun file hf xs hx x hxx => by
    rw [k.rows]
    exact (mem_itemList rowv _).2 (hall file hf xs hx x hxx))
  rw [e, ← hs]
  have : ((m.rows.map (fun t => ((neighboursCounted f L R files t : Nat) : Int))).sum) =
      (((m.rows.map (neighboursCounted f L R files)).sum : Nat) : Int) := by
    rw [cast_sum, List.map_map]
    rfl
  rw [this]
  push_cast
  rfl

/-- **C223 (partial).**  The full claim is `C223_claim`; it is false (`C223_false`).  It holds for files without segments of 2 to `R`
lines. -/
theorem C223_partial {f : Formatter ℓ μ κ} {L R : Nat} {rowv colv : Vocab κ} (hrw : Constructed rowv) (hc : Constructed colv)
    (hno : colv.freq = []) {files : List (List ℓ)} (hall : AllTypes f rowv files)
    (hseg : ∀ n ∈ segLengths f files, n ≤ 1 ∨ R < n) : C223_claim f L R rowv colv files := by
  intro m h
  have e := C223_exact hrw hc hno hall h
  have z : ((segLengths f files).map (pairsMissed L R)).sum = 0 := by
    refine List.sum_eq_zero fun x hx => ?_
    obtain ⟨n, hn, rfl⟩ := List.mem_map.1 hx
    unfold pairsMissed
    rcases hseg n hn with h1 | h1
    · rw [show n - 1 = 0 by omega]
      simp
    · rw [if_neg (by omega)]
  rw [z] at e
  simpa using e

/-- C223: the sum of all counts does not depend on the words, only on the lengths of the segments. -/
theorem C223_words {ℓ' μ' κ' : Type} [LinearOrder κ'] {f : Formatter ℓ μ κ} {f' : Formatter ℓ' μ' κ'} {L R : Nat}
    {rowv colv : Vocab κ} {rowv' colv' : Vocab κ'} (hrw : Constructed rowv) (hc : Constructed colv) (hrw' : Constructed rowv')
    (hc' : Constructed colv') (hno : colv.freq = []) (hno' : colv'.freq = []) {files : List (List ℓ)} {files' : List (List ℓ')}
    (hall : AllTypes f rowv files) (hall' : AllTypes f' rowv' files') (hlen : (segLengths f files).Perm (segLengths f' files'))
    {m : Mtx κ Int} {m' : Mtx κ' Int} (h : Returns f L R rowv colv files (some m)) (h' : Returns f' L R rowv' colv' files' (some m')) :
    total m = total m' := by
  have a := C223_exact hrw hc hno hall h
  have b := C223_exact hrw' hc' hno' hall' h'
  rw [(hlen.map _).sum_eq, (hlen.map (pairsWithin L R)).sum_eq] at a
  omega

/-- **C223 is false** as it stands: two lines with spans (1, 2) have two pairs, but one is counted. -/
theorem C223_false : ¬ C223_claim fmt 1 2 rowv12 Vocab.empty [[1, 2]] := by
  intro h
  have a : Returns fmt 1 2 rowv12 Vocab.empty [[1, 2]] (some ⟨.sp ⟨.csr, 2, 1, [((0, 0), 1)]⟩, [1, 2], [2]⟩) := by
    refine ⟨1, one, _, le_refl _, by intro i; simp [one], rfl, ⟨rfl, ?_⟩, rfl⟩
    intro w hw
    exact Or.inl ⟨_, List.mem_singleton.1 hw⟩
  have := h _ a
  revert this
  decide +kernel

/-- Spans (1, 1), segments of two and three lines: all types are rows, no segment is too short, and there are 2 + 4 pairs. -/
example : AllTypes fmt rowv12 [[1, 2, 10, 1, 2, 1]] ∧ segLengths fmt [[1, 2, 10, 1, 2, 1]] = [2, 3] ∧
    ((segLengths fmt [[1, 2, 10, 1, 2, 1]]).map (pairsWithin 1 1)).sum = 6 := by
  refine ⟨?_, by decide +kernel, by decide +kernel⟩
  unfold AllTypes
  decide +kernel

/-! ## C224 -/

/-- The places from which place `j` of `n` places is seen: at most `R` before and at most `L` after it. -/
def seenFrom (L R n j : Nat) : Nat := min j R + min (n - 1 - j) L

/-- The lines that see a line with collocate `c`, segment by segment. -/
def seenOf (f : Formatter ℓ μ κ) (L R : Nat) (files : List (List ℓ)) (c : κ) : Nat :=
  (files.map (fun file => ((segTexts f file).map (fun xs =>
    ∑ j ∈ Finset.range xs.length, if xs[j]?.map f.getColloc = some c then seenFrom L R xs.length j else 0)).sum)).sum

/-- Those of them that are not counted: the last line of a segment of at most `R` lines. -/
def seenMissed (f : Formatter ℓ μ κ) (L R : Nat) (files : List (List ℓ)) (c : κ) : Nat :=
  (files.map (fun file => ((segTexts f file).map (fun xs =>
    ∑ j ∈ Finset.range xs.length, if xs[j]?.map f.getColloc = some c then
      (if xs.length ≤ R ∧ j + 1 < xs.length ∧ xs.length ≤ j + 1 + L then 1 else 0) else 0)).sum)).sum

theorem card_seen (L R : Nat) {n j : Nat} (hj : j < n) :
    ((Finset.range n).filter (fun i => (n ≤ R → i + 1 < n) ∧ i ≠ j ∧ i ≤ j + L ∧ j ≤ i + R)).card +
      (if n ≤ R ∧ j + 1 < n ∧ n ≤ j + 1 + L then 1 else 0) = seenFrom L R n j := by
  have base : ((Finset.range n).filter (fun i => i ≠ j ∧ i ≤ j + L ∧ j ≤ i + R)).card = seenFrom L R n j := by
    have := card_neighbours R L hj
    unfold neighbours at this
    unfold seenFrom
    rw [← this]
    congr 1
    ext i
    simp only [Finset.mem_filter, Finset.mem_range]
    constructor <;> rintro ⟨h0, h1, h2, h3⟩ <;> exact ⟨h0, by omega, by omega, by omega⟩
  rw [← base]
  by_cases h : n ≤ R ∧ j + 1 < n ∧ n ≤ j + 1 + L
  · rw [if_pos h]
    have : (Finset.range n).filter (fun i => (n ≤ R → i + 1 < n) ∧ i ≠ j ∧ i ≤ j + L ∧ j ≤ i + R) =
        ((Finset.range n).filter (fun i => i ≠ j ∧ i ≤ j + L ∧ j ≤ i + R)).erase (n - 1) := by
      ext i
      simp only [Finset.mem_filter, Finset.mem_erase, Finset.mem_range]
      omega
    rw [this, Finset.card_erase_add_one]
    simp only [Finset.mem_filter, Finset.mem_range]
    omega
  · rw [if_neg h, Nat.add_zero]
    congr 1
    ext i
    simp only [Finset.mem_filter, Finset.mem_range]
    omega

theorem segment_seen (f : Formatter ℓ μ κ) (L R : Nat) (xs : List μ) (c : κ) {ts : List κ} (hts : ts.Nodup)
    (hall : ∀ x ∈ xs, f.getType x ∈ ts) :
    (ts.map (fun t => (segPairs f L R xs t c).card)).sum + (∑ j ∈ Finset.range xs.length, if xs[j]?.map f.getColloc = some c then
      (if xs.length ≤ R ∧ j + 1 < xs.length ∧ xs.length ≤ j + 1 + L then 1 else 0) else 0) =
    ∑ j ∈ Finset.range xs.length, if xs[j]?.map f.getColloc = some c then seenFrom L R xs.length j else 0 := by
  have e : (ts.map (fun t => (segPairs f L R xs t c).card)).sum = ∑ j ∈ Finset.range xs.length,
      if xs[j]?.map f.getColloc = some c then
        ((Finset.range xs.length).filter (fun i => (xs.length ≤ R → i + 1 < xs.length) ∧ i ≠ j ∧ i ≤ j + L ∧ j ≤ i + R)).card
      else 0 := by
    rw [← List.sum_toFinset _ hts, ← Finset.card_biUnion]
    · have e : ts.toFinset.biUnion (fun t => segPairs f L R xs t c) =
          (Finset.range xs.length ×ˢ Finset.range xs.length).filter (fun p : Nat × Nat =>
            xs[p.2]?.map f.getColloc = some c ∧ (xs.length ≤ R → p.1 + 1 < xs.length) ∧ p.1 ≠ p.2 ∧ p.1 ≤ p.2 + L ∧ p.2 ≤ p.1 + R) := by
        ext p
        simp only [segPairs, Finset.mem_biUnion, Finset.mem_filter, Finset.mem_product, Finset.mem_range, List.mem_toFinset]
        constructor
        · rintro ⟨t, _, h0, h1, h2, h3, h4, _, h5⟩
          exact ⟨h0, h5, h1, h2, h3, h4⟩
        · rintro ⟨h0, h5, h1, h2, h3, h4⟩
          exact ⟨f.getType xs[p.1], hall _ (List.getElem_mem h0.1), h0, h1, h2, h3, h4, by
            rw [List.getElem?_eq_getElem h0.1]; rfl, h5⟩
      rw [e, Finset.card_filter, Finset.sum_product_right]
      refine Finset.sum_congr rfl fun j _ => ?_
      by_cases hA : xs[j]?.map f.getColloc = some c
      · rw [if_pos hA, Finset.card_filter]
        refine Finset.sum_congr rfl fun i _ => ?_
        exact if_congr (and_iff_right hA) rfl rfl
      · rw [if_neg hA]
        exact Finset.sum_eq_zero fun i _ => if_neg fun h => hA h.1
    · intro t _ t' _ hne
      refine Finset.disjoint_left.2 (fun p h1 h2 => hne ?_)
      have a := (Finset.mem_filter.1 h1).2.2.2.2.2.1
      have b := (Finset.mem_filter.1 h2).2.2.2.2.2.1
      exact Option.some.inj (a.symm.trans b)
  rw [e, ← Finset.sum_add_distrib]
  refine Finset.sum_congr rfl fun j hj => ?_
  by_cases hA : xs[j]?.map f.getColloc = some c
  · simp only [if_pos hA]
    exact card_seen L R (Finset.mem_range.1 hj)
  · simp only [if_neg hA]

/-- **C224**, exactly: the column of a collocate adds up to the lines that see it, if all types are rows, without the last lines of
segments of at most `R` lines. -/
theorem C224_exact {f : Formatter ℓ μ κ} {L R : Nat} {rowv colv : Vocab κ} (hrw : Constructed rowv) (hc : Constructed colv)
    {files : List (List ℓ)} (hall : AllTypes f rowv files) {m : Mtx κ Int}
    (h : Returns f L R rowv colv files (some m)) {c : κ} (hcol : colv.freq = [] ∨ c ∈ colv.freq.keys) :
    (m.rows.map (fun t => entry m t c)).sum + (seenMissed f L R files c : Nat) = (seenOf f L R files c : Nat) := by
  have k := (h.isResult hrw hc).1
  have e : (m.rows.map (fun t => entry m t c)).sum =
      ((m.rows.map (fun t => (files.map (fun file => ((segTexts f file).map (fun xs => (segPairs f L R xs t c).card)).sum)).sum)).sum : Nat) := by
    rw [cast_sum, List.map_map]
    refine congrArg _ (List.map_congr_left fun t ht => ?_)
    rw [k.rows] at ht
    rw [k.entry]
    unfold totalCount
    rw [if_pos ⟨(mem_itemList rowv t).1 ht, hcol⟩]
    rfl
  rw [e, ← Nat.cast_add]
  congr 1
  unfold seenMissed seenOf
  rw [sum_map_swap]
  have := sum_split (l := files)
    (a := fun file => (m.rows.map (fun t => ((segTexts f file).map (fun xs => (segPairs f L R xs t c).card)).sum)).sum)
    (b := fun file => ((segTexts f file).map (fun xs =>
      ∑ j ∈ Finset.range xs.length, if xs[j]?.map f.getColloc = some c then
        (if xs.length ≤ R ∧ j + 1 < xs.length ∧ xs.length ≤ j + 1 + L then 1 else 0) else 0)).sum)
    (g := fun file => ((segTexts f file).map (fun xs =>
      ∑ j ∈ Finset.range xs.length, if xs[j]?.map f.getColloc = some c then seenFrom L R xs.length j else 0)).sum)
    (h := fun _ => 0) (fun file hf => by
      rw [sum_map_swap]
      have := sum_split (l := segTexts f file) (a := fun xs => (m.rows.map (fun t => (segPairs f L R xs t c).card)).sum)
        (b := fun xs => ∑ j ∈ Finset.range xs.length, if xs[j]?.map f.getColloc = some c then
          (if xs.length ≤ R ∧ j + 1 < xs.length ∧ xs.length ≤ j + 1 + L then 1 else 0) else 0)
        (g := fun xs => ∑ j ∈ Finset.range xs.length, if xs[j]?.map f.getColloc = some c then seenFrom L R xs.length j else 0)
        (h := fun _ => 0) (fun xs hx => by
          rw [segment_seen f L R xs c k.valid.rows (fun x hxx => by
            rw [k.rows]; exact (mem_itemList rowv _).2 (hall file hf xs hx x hxx)), Nat.add_zero])
      simpa using this)
  simpa using this

/-- The claim about column sums. -/
def C224_claim (f : Formatter ℓ μ κ) (L R : Nat) (rowv colv : Vocab κ) (files : List (List ℓ)) : Prop :=
  ∀ m, Returns f L R rowv colv files (some m) → ∃ d, colSums m = .ok d ∧ ∀ c ∈ m.cols, d.get? c = some ((seenOf f L R files c : Nat) : Int)

/-- **C224 (partial).**  The full claim is `C224_claim`; it is false (`C224_false`).  It holds for matrices of more than one column (see
C53) and files without segments of 2 to `R` lines. -/
theorem C224_partial {f : Formatter ℓ μ κ} {L R : Nat} {rowv colv : Vocab κ} (hrw : Constructed rowv) (hc : Constructed colv)
    {files : List (List ℓ)} (hall : AllTypes f rowv files) (hseg : ∀ n ∈ segLengths f files, n ≤ 1 ∨ R < n) {m : Mtx κ Int}
    (h : Returns f L R rowv colv files (some m)) (h1 : m.cols.length ≠ 1) :
    ∃ d, colSums m = .ok d ∧ ∀ c ∈ m.cols, d.get? c = some ((seenOf f L R files c : Nat) : Int) := by
  have k := (h.isResult hrw hc).1
  obtain ⟨d, hd, _, hs⟩ := C53_col_sums_partial k.valid h1
  refine ⟨d, hd, fun c hcm => ?_⟩
  have hcol : colv.freq = [] ∨ c ∈ colv.freq.keys := by
    by_cases hno : colv.freq = []
    · exact .inl hno
    · have := (k.cols c).1 hcm
      rw [if_neg hno] at this
      exact .inr this
  have e := C224_exact hrw hc hall h hcol
  have z : seenMissed f L R files c = 0 := by
    unfold seenMissed
    refine List.sum_eq_zero (fun x hx => ?_)
    obtain ⟨file, hf, rfl⟩ := List.mem_map.1 hx
    refine List.sum_eq_zero (fun x hx => ?_)
    obtain ⟨xs, hxs, rfl⟩ := List.mem_map.1 hx
    refine Finset.sum_eq_zero fun j _ => ?_
    have : xs.length ≤ 1 ∨ R < xs.length :=
      hseg _ (List.mem_flatMap.2 ⟨file, hf, List.mem_map.2 ⟨xs, hxs, rfl⟩⟩)
    split
    · rw [if_neg (by omega)]
    · rfl
  rw [hs c hcm]
  rw [z] at e
  rw [← e]
  simp

/-- **C224 is false** as it stands: with spans (1, 2) the first of two lines is not seen from the second. -/
theorem C224_false : ¬ C224_claim fmt 1 2 rowv12 Vocab.empty [[1, 2, 10, 1, 2, 1]] := by
  intro h
  have a : Returns fmt 1 2 rowv12 Vocab.empty [[1, 2, 10, 1, 2, 1]]
      (some ⟨.sp ⟨.csr, 2, 2, [((0, 0), 1), ((0, 1), 3), ((1, 0), 2)]⟩, [1, 2], [1, 2]⟩) := by
    refine ⟨1, one, _, le_refl _, by intro i; simp [one], rfl, ⟨rfl, ?_⟩, rfl⟩
    intro w hw
    exact Or.inl ⟨_, List.mem_singleton.1 hw⟩
  obtain ⟨d, hd, hs⟩ := h _ a
  have e : d = [(1, 3), (2, 3)] := by
    have : colSums (⟨.sp ⟨.csr, 2, 2, [((0, 0), 1), ((0, 1), 3), ((1, 0), 2)]⟩, [1, 2], [1, 2]⟩ : Mtx Nat Int) = .ok [(1, 3), (2, 3)] := by decide
    rw [this] at hd
    exact (Except.ok.inj hd).symm
  have := hs 1 (by decide)
  rw [e] at this
  revert this
  decide +kernel

/-- The lines that see 1 and 2 within spans (1, 1). -/
example : seenOf fmt 1 1 [[1, 2, 10, 1, 2, 1]] 1 = 3 ∧ seenOf fmt 1 1 [[1, 2, 10, 1, 2, 1]] 2 = 3 ∧
    seenMissed fmt 1 2 [[1, 2, 10, 1, 2, 1]] 1 = 1 := by
  decide

end Verif.Cooc
