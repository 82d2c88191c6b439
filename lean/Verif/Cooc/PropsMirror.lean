import Verif.Cooc.PropsBounds

/-! # Property theorem C174 (left and right are treated alike) -/

set_option linter.unusedSectionVars false

namespace Verif.Cooc
open Verif.Py Verif.Vocab Verif.Corpus Verif.Window Verif.Engine Verif.Matrix

variable {ℓ μ κ : Type} [LinearOrder κ]

/-- A line at which the loop over a file begins a new segment. -/
def Separates (f : Formatter ℓ μ κ) (line : ℓ) : Prop := f.matchLine line = none ∧ f.isSep line = true

theorem segsFrom_plain (f : Formatter ℓ μ κ) (file : List ℓ) (h : ∀ line ∈ file, ¬ Separates f line) :
    ∀ (cur : List (μ × Nat)) (lid : Nat), (segsFrom f cur lid file).map (List.map Prod.fst) =
      [cur.map Prod.fst ++ file.filterMap f.matchLine] := by
  induction file with
  | nil => intro cur lid; simp [segsFrom_nil]
  | cons line file ih =>
    intro cur lid
    rw [segsFrom_cons]
    have h1 := h line (by simp)
    have ih' := ih (fun x hx => h x (List.mem_cons_of_mem _ hx))
    cases hm : f.matchLine line with
    | some m => simp [ih', hm]
    | none =>
      have hs : ¬ f.isSep line = true := fun e => h1 ⟨hm, e⟩
      simp [ih', hm, hs]

theorem segTexts_plain (f : Formatter ℓ μ κ) {file : List ℓ} (h : ∀ line ∈ file, ¬ Separates f line) :
    segTexts f file = [file.filterMap f.matchLine] := by
  unfold segTexts
  rw [segments_eq, segsFrom_plain f file h]
  rfl

theorem segTexts_split (f : Formatter ℓ μ κ) (a b : List ℓ) {sep : ℓ} (h : Separates f sep) :
    segTexts f (a ++ sep :: b) = segTexts f a ++ segTexts f b := by
  unfold segTexts
  rw [segments_append f a b sep h.1 h.2, List.map_append, List.map_map]
  congr 1
  apply List.map_congr_left
  intro xs _
  simp

/-- The segments of a file read backwards. -/
theorem segTexts_reverse (f : Formatter ℓ μ κ) (file : List ℓ) :
    segTexts f file.reverse = ((segTexts f file).map List.reverse).reverse := by
  induction hn : file.length using Nat.strong_induction_on generalizing file with
  | _ n ih =>
    by_cases h : ∃ line ∈ file, Separates f line
    · obtain ⟨sep, hmem, hs⟩ := h
      obtain ⟨a, b, rfl⟩ := List.append_of_mem hmem
      have e : (a ++ sep :: b).reverse = b.reverse ++ sep :: a.reverse := by simp
      simp only [List.length_append, List.length_cons] at hn
      rw [e, segTexts_split f _ _ hs, segTexts_split f _ _ hs, ih b.length (by omega) b rfl, ih a.length (by omega) a rfl,
        List.map_append, List.reverse_append]
    · have h1 : ∀ line ∈ file, ¬ Separates f line := fun line hl e => h ⟨line, hl, e⟩
      rw [segTexts_plain f h1, segTexts_plain f (fun line hl => h1 line (List.mem_reverse.1 hl)), List.filterMap_reverse]
      rfl

theorem mirror_segment (f : Formatter ℓ μ κ) (L R : Nat) (xs : List μ) (t c : κ) (h : xs.length ≤ 1 ∨ max L R < xs.length) :
    ((Finset.range xs.reverse.length ×ˢ Finset.range xs.reverse.length).filter (fun p : Nat × Nat =>
      (xs.reverse.length ≤ L → p.1 + 1 < xs.reverse.length) ∧ p.1 ≠ p.2 ∧ p.1 ≤ p.2 + R ∧ p.2 ≤ p.1 + L ∧
      xs.reverse[p.1]?.map f.getType = some t ∧ xs.reverse[p.2]?.map f.getColloc = some c)).card =
    ((Finset.range xs.length ×ˢ Finset.range xs.length).filter (fun p : Nat × Nat =>
      (xs.length ≤ R → p.1 + 1 < xs.length) ∧ p.1 ≠ p.2 ∧ p.1 ≤ p.2 + L ∧ p.2 ≤ p.1 + R ∧
      xs[p.1]?.map f.getType = some t ∧ xs[p.2]?.map f.getColloc = some c)).card := by
  rw [List.length_reverse]
  refine Finset.card_bij' (fun p _ => (xs.length - 1 - p.1, xs.length - 1 - p.2)) (fun p _ => (xs.length - 1 - p.1, xs.length - 1 - p.2))
    ?_ ?_ ?_ ?_
  · intro p hp
    simp only [Finset.mem_filter, Finset.mem_product, Finset.mem_range] at hp ⊢
    obtain ⟨⟨h1, h2⟩, h3, h4, h5, h6, h7, h8⟩ := hp
    rw [List.getElem?_reverse h1] at h7
    rw [List.getElem?_reverse h2] at h8
    exact ⟨⟨by omega, by omega⟩, by omega, by omega, by omega, by omega, h7, h8⟩
  · intro p hp
    simp only [Finset.mem_filter, Finset.mem_product, Finset.mem_range] at hp ⊢
    obtain ⟨⟨h1, h2⟩, h3, h4, h5, h6, h7, h8⟩ := hp
    refine ⟨⟨by omega, by omega⟩, by omega, by omega, by omega, by omega, ?_, ?_⟩
    · rw [List.getElem?_reverse (by omega), show xs.length - 1 - (xs.length - 1 - p.1) = p.1 by omega]; exact h7
    · rw [List.getElem?_reverse (by omega), show xs.length - 1 - (xs.length - 1 - p.2) = p.2 by omega]; exact h8
  · intro p hp
    simp only [Finset.mem_filter, Finset.mem_product, Finset.mem_range] at hp
    exact Prod.ext (by simp only; omega) (by simp only; omega)
  · intro p hp
    simp only [Finset.mem_filter, Finset.mem_product, Finset.mem_range] at hp
    exact Prod.ext (by simp only; omega) (by simp only; omega)

/-- The claim: reading every file backwards with the spans exchanged gives the same matrix. -/
def C174_claim (f : Formatter ℓ μ κ) (L R : Nat) (rowv colv : Vocab κ) (files : List (List ℓ)) : Prop :=
  ∀ r r', Returns f L R rowv colv files r → Returns f R L rowv colv (files.map List.reverse) r' →
    (r = none ∧ r' = none) ∨ ∃ m n, r = some m ∧ r' = some n ∧ SameNamed m n

theorem total_mirror {f : Formatter ℓ μ κ} {L R : Nat} {rowv colv : Vocab κ} {files : List (List ℓ)}
    (hseg : ∀ file ∈ files, ∀ xs ∈ segTexts f file, xs.length ≤ 1 ∨ max L R < xs.length) (t c : κ) :
    totalCount f R L rowv colv (files.map List.reverse) t c = totalCount f L R rowv colv files t c := by
  unfold totalCount
  split
  · rw [List.map_map]
    congr 1
    apply List.map_congr_left
    intro file hf
    show pairCount f R L file.reverse t c = _
    unfold pairCount
    rw [segTexts_reverse, List.map_reverse, List.sum_reverse, List.map_map]
    congr 1
    apply List.map_congr_left
    intro xs hx
    exact mirror_segment f L R xs t c (hseg file hf xs hx)
  · rfl

/-- **C174 (partial).**  The full claim `C174_claim` is false (`C174_false`).  It holds for files without a segment of 2 to
`max L R` lines. -/
theorem C174_partial {f : Formatter ℓ μ κ} {L R : Nat} {rowv colv : Vocab κ} (hrw : Constructed rowv) (hc : Constructed colv)
    {files : List (List ℓ)} (hseg : ∀ file ∈ files, ∀ xs ∈ segTexts f file, xs.length ≤ 1 ∨ max L R < xs.length) :
    C174_claim f L R rowv colv files := by
  intro r r' hr hr'
  have k := hr.isResult hrw hc
  have k' := hr'.isResult hrw hc
  have e := fun t c => total_mirror (rowv := rowv) (colv := colv) hseg t c
  cases r with
  | none =>
    cases r' with
    | none => exact .inl ⟨rfl, rfl⟩
    | some n =>
      obtain ⟨t, c, hp⟩ := k'.2
      rw [e, k t c] at hp
      omega
  | some m =>
    cases r' with
    | none =>
      obtain ⟨t, c, hp⟩ := k.2
      rw [← e, k' t c] at hp
      omega
    | some n =>
      refine .inr ⟨m, n, rfl, rfl, k.1.rows.trans k'.1.rows.symm, ?_, fun t c => by rw [k.1.entry, k'.1.entry, e]⟩
      refine eq_of_perm_of_pairwise (fun a _ b _ x y => le_antisymm x y) ?_ k.1.sorted k'.1.sorted
      refine (List.perm_ext_iff_of_nodup k.1.valid.cols k'.1.valid.cols).2 (fun c => ?_)
      rw [k.1.cols, k'.1.cols]
      simp only [e]

/-- **C174 is false**: of the lines 1, 2 read with spans (1, 2) the second is no target; read backwards with spans (2, 1) it is. -/
theorem C174_false : ¬ C174_claim fmt 1 2 rowv12 Vocab.empty [[1, 2]] := by
  intro h
  have a : Returns fmt 1 2 rowv12 Vocab.empty [[1, 2]] (some ⟨.sp ⟨.csr, 2, 1, [((0, 0), 1)]⟩, [1, 2], [2]⟩) := by
    refine ⟨1, one, _, le_refl _, by intro i; simp [one], rfl, ⟨rfl, ?_⟩, rfl⟩
    intro w hw
    exact Or.inl ⟨_, List.mem_singleton.1 hw⟩
  have b : Returns fmt 2 1 rowv12 Vocab.empty [[2, 1]] (some ⟨.sp ⟨.csr, 2, 2, [((0, 1), 1), ((1, 0), 1)]⟩, [1, 2], [1, 2]⟩) := by
    refine ⟨1, one, _, le_refl _, by intro i; simp [one], rfl, ⟨rfl, ?_⟩, rfl⟩
    intro w hw
    exact Or.inl ⟨_, List.mem_singleton.1 hw⟩
  obtain ⟨h0, _⟩ | ⟨m, n, h1, h2, h3⟩ := h _ _ a b
  · cases h0
  · cases h1
    cases h2
    have := h3.cols
    revert this
    decide

/-- Non-vacuity of `C174_partial`. -/
example : Constructed rowv12 ∧ ∀ xs ∈ segTexts fmt [1, 2, 1, 10, 3, 10, 2, 2, 1, 1], xs.length ≤ 1 ∨ max 1 2 < xs.length :=
  ⟨⟨by unfold Dict.WF; decide, rfl⟩, by decide⟩

end Verif.Cooc
