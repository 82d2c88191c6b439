import Verif.Cooc.PropsLaws

/-! # Property theorems C220 (counts to the left and to the right add up) -/

set_option linter.unusedSectionVars false

namespace Verif.Cooc
open Verif.Py Verif.Vocab Verif.Corpus Verif.Window Verif.Engine Verif.Matrix

variable {ℓ μ κ : Type} [LinearOrder κ]

/-! ### Specification -/

/-- The claim: the counts within both spans are the counts within the left span plus those within the right span. -/
def C220_claim (f : Formatter ℓ μ κ) (L R : Nat) (rowv colv : Vocab κ) (files : List (List ℓ)) : Prop :=
  ∀ r left right, Returns f L R rowv colv files r → Returns f L 0 rowv colv files left → Returns f 0 R rowv colv files right →
    ∀ t c, countIn r t c = countIn left t c + countIn right t c

/-- What is not counted: in a segment of at most `R` lines, the collocates at most `L` lines before the last line. -/
def lostBefore (f : Formatter ℓ μ κ) (L R : Nat) (xs : List μ) (t c : κ) : Nat :=
  if xs.length ≤ R then
    ((Finset.range (xs.length - 1)).filter (fun j => xs.length - 1 ≤ j + L ∧ xs[xs.length - 1]?.map f.getType = some t ∧
      xs[j]?.map f.getColloc = some c)).card
  else 0

/-- The same in all files. -/
def lostCount (f : Formatter ℓ μ κ) (L R : Nat) (files : List (List ℓ)) (t c : κ) : Nat :=
  (files.map (fun file => ((segTexts f file).map (fun xs => lostBefore f L R xs t c)).sum)).sum

/-! ### Proof -/

theorem sum_split {α : Type} {l : List α} {a b g h : α → Nat} (H : ∀ x ∈ l, a x + b x = g x + h x) :
    (l.map a).sum + (l.map b).sum = (l.map g).sum + (l.map h).sum := by
  induction l with
  | nil => rfl
  | cons x l ih =>
    simp only [List.map_cons, List.sum_cons]
    have := H x (by simp)
    have := ih (fun y hy => H y (by simp [hy]))
    omega

/-- Pairs of positions of a segment that the loop counts. -/
def segPairs (f : Formatter ℓ μ κ) (L R : Nat) (xs : List μ) (t c : κ) : Finset (Nat × Nat) :=
  (Finset.range xs.length ×ˢ Finset.range xs.length).filter (fun p : Nat × Nat =>
      (xs.length ≤ R → p.1 + 1 < xs.length) ∧ p.1 ≠ p.2 ∧ p.1 ≤ p.2 + L ∧ p.2 ≤ p.1 + R ∧
      xs[p.1]?.map f.getType = some t ∧ xs[p.2]?.map f.getColloc = some c)

theorem segment_sides (f : Formatter ℓ μ κ) (L R : Nat) (xs : List μ) (t c : κ) :
    (segPairs f L 0 xs t c).card + (segPairs f 0 R xs t c).card = (segPairs f L R xs t c).card + lostBefore f L R xs t c := by
  have hd : Disjoint (segPairs f L 0 xs t c) (segPairs f 0 R xs t c) := by
    rw [Finset.disjoint_left]
    rintro ⟨i, j⟩ h1 h2
    simp only [segPairs, Finset.mem_filter, Finset.mem_product, Finset.mem_range] at h1 h2
    omega
  rw [← Finset.card_union_of_disjoint hd]
  unfold lostBefore
  by_cases hs : xs.length ≤ R
  · rw [if_pos hs]
    have hinj : Function.Injective (fun j : Nat => (xs.length - 1, j)) := fun a b h => (Prod.mk.inj h).2
    rw [← Finset.card_map ⟨_, hinj⟩, ← Finset.card_union_of_disjoint]
    · congr 1
      ext ⟨i, j⟩
      simp only [segPairs, Finset.mem_union, Finset.mem_filter, Finset.mem_product, Finset.mem_range, Finset.mem_map,
        Function.Embedding.coeFn_mk, Prod.mk.injEq]
      constructor
      · rintro (⟨⟨h1, h2⟩, h3, h4, h5, h6, h7, h8⟩ | ⟨⟨h1, h2⟩, h3, h4, h5, h6, h7, h8⟩)
        · by_cases hl : i + 1 < xs.length
          · exact .inl ⟨⟨h1, h2⟩, fun _ => hl, h4, h5, by omega, h7, h8⟩
          · have hi : i = xs.length - 1 := by omega
            exact .inr ⟨j, ⟨by omega, by omega, hi ▸ h7, h8⟩, hi.symm, rfl⟩
        · exact .inl ⟨⟨h1, h2⟩, h3, h4, by omega, h6, h7, h8⟩
      · rintro (⟨⟨h1, h2⟩, h3, h4, h5, h6, h7, h8⟩ | ⟨j', ⟨h1, h2, h3, h4⟩, rfl, rfl⟩)
        · rcases Nat.lt_or_ge i j with hij | hij
          · exact .inr ⟨⟨h1, h2⟩, h3, h4, by omega, h6, h7, h8⟩
          · exact .inl ⟨⟨h1, h2⟩, fun h => by omega, h4, h5, by omega, h7, h8⟩
        · exact .inl ⟨⟨by omega, by omega⟩, fun h => by omega, by omega, by omega, by omega, h3, h4⟩
    · rw [Finset.disjoint_left]
      rintro ⟨i, j⟩ h1 h2
      simp only [segPairs, Finset.mem_filter, Finset.mem_product, Finset.mem_range, Finset.mem_map,
        Function.Embedding.coeFn_mk, Prod.mk.injEq] at h1 h2
      obtain ⟨j', _, rfl, rfl⟩ := h2
      have := h1.2.1 hs
      omega
  · rw [if_neg hs, Nat.add_zero]
    congr 1
    ext ⟨i, j⟩
    simp only [segPairs, Finset.mem_union, Finset.mem_filter, Finset.mem_product, Finset.mem_range]
    constructor
    · rintro (⟨⟨h1, h2⟩, h3, h4, h5, h6, h7, h8⟩ | ⟨⟨h1, h2⟩, h3, h4, h5, h6, h7, h8⟩)
      · exact ⟨⟨h1, h2⟩, fun h => absurd h hs, h4, h5, by omega, h7, h8⟩
      · exact ⟨⟨h1, h2⟩, fun h => absurd h hs, h4, by omega, h6, h7, h8⟩
    · rintro ⟨⟨h1, h2⟩, h3, h4, h5, h6, h7, h8⟩
      rcases Nat.lt_or_ge i j with hij | hij
      · exact .inr ⟨⟨h1, h2⟩, h3, h4, by omega, h6, h7, h8⟩
      · exact .inl ⟨⟨h1, h2⟩, fun h => by omega, h4, h5, by omega, h7, h8⟩

theorem totalCount_sides (f : Formatter ℓ μ κ) (L R : Nat) (rowv colv : Vocab κ) (files : List (List ℓ)) (t c : κ) :
    totalCount f L 0 rowv colv files t c + totalCount f 0 R rowv colv files t c =
      totalCount f L R rowv colv files t c + if Wanted rowv colv t c then lostCount f L R files t c else 0 := by
  unfold totalCount
  by_cases hw : Wanted rowv colv t c
  · simp only [if_pos hw]
    exact sum_split (fun file _ => sum_split (fun xs _ => segment_sides f L R xs t c))
  · simp only [if_neg hw]

/-! ## C220 -/

/-- **C220**, exactly: the counts to the left and to the right exceed those within both spans by the pairs whose target is the last line
of a segment of at most `R` lines. -/
theorem C220_exact {f : Formatter ℓ μ κ} {L R : Nat} {rowv colv : Vocab κ} (hrw : Constructed rowv) (hc : Constructed colv)
    {files : List (List ℓ)} {r left right : Option (Mtx κ Int)} (h : Returns f L R rowv colv files r)
    (hl : Returns f L 0 rowv colv files left) (hr : Returns f 0 R rowv colv files right) (t c : κ) :
    countIn left t c + countIn right t c = countIn r t c + if Wanted rowv colv t c then (lostCount f L R files t c : Int) else 0 := by
  rw [(h.isResult hrw hc).countIn, (hl.isResult hrw hc).countIn, (hr.isResult hrw hc).countIn]
  have := totalCount_sides f L R rowv colv files t c
  split at this <;> simp_all <;> omega

/-- **C220 (partial).**  The full claim is `C220_claim`; it is false (`C220_false`).  It holds for files without segments of 2 to `R`
lines. -/
theorem C220_partial {f : Formatter ℓ μ κ} {L R : Nat} {rowv colv : Vocab κ} (hrw : Constructed rowv) (hc : Constructed colv)
    {files : List (List ℓ)} (hseg : ∀ file ∈ files, ∀ xs ∈ segTexts f file, xs.length ≤ 1 ∨ R < xs.length) :
    C220_claim f L R rowv colv files := by
  intro r left right h hl hr t c
  have e := C220_exact hrw hc h hl hr t c
  have z : lostCount f L R files t c = 0 := by
    unfold lostCount
    refine List.sum_eq_zero (fun n hn => ?_)
    obtain ⟨file, hf, rfl⟩ := List.mem_map.1 hn
    refine List.sum_eq_zero (fun n hn => ?_)
    obtain ⟨xs, hx, rfl⟩ := List.mem_map.1 hn
    unfold lostBefore
    rcases hseg file hf xs hx with h1 | h1
    · rw [show xs.length - 1 = 0 by omega]
      simp
    · rw [if_neg (by omega)]
  rw [z] at e
  simp at e
  exact e.symm

/-- Whatever the files, no pair is counted more often within both spans than within the left and within the right. -/
theorem C220_never_more {f : Formatter ℓ μ κ} {L R : Nat} {rowv colv : Vocab κ} (hrw : Constructed rowv) (hc : Constructed colv)
    {files : List (List ℓ)} {r left right : Option (Mtx κ Int)} (h : Returns f L R rowv colv files r)
    (hl : Returns f L 0 rowv colv files left) (hr : Returns f 0 R rowv colv files right) (t c : κ) :
    countIn r t c ≤ countIn left t c + countIn right t c := by
  have e := C220_exact hrw hc h hl hr t c
  split at e <;> omega

/-- **C220 is false**: of two lines, the second has a neighbour to the left, but is no target with spans (1, 2). -/
theorem C220_false : ¬ C220_claim fmt 1 2 rowv12 Vocab.empty [[1, 2]] := by
  intro h
  have a : Returns fmt 1 2 rowv12 Vocab.empty [[1, 2]] (some ⟨.sp ⟨.csr, 2, 1, [((0, 0), 1)]⟩, [1, 2], [2]⟩) := by
    refine ⟨1, one, _, le_refl _, by intro i; simp [one], rfl, ⟨rfl, ?_⟩, rfl⟩
    intro w hw
    exact Or.inl ⟨_, List.mem_singleton.1 hw⟩
  have b : Returns fmt 1 0 rowv12 Vocab.empty [[1, 2]] (some ⟨.sp ⟨.csr, 2, 1, [((1, 0), 1)]⟩, [1, 2], [1]⟩) := by
    refine ⟨1, one, _, le_refl _, by intro i; simp [one], rfl, ⟨rfl, ?_⟩, rfl⟩
    intro w hw
    exact Or.inl ⟨_, List.mem_singleton.1 hw⟩
  have c : Returns fmt 0 2 rowv12 Vocab.empty [[1, 2]] (some ⟨.sp ⟨.csr, 2, 1, [((0, 0), 1)]⟩, [1, 2], [2]⟩) := by
    refine ⟨1, one, _, le_refl _, by intro i; simp [one], rfl, ⟨rfl, ?_⟩, rfl⟩
    intro w hw
    exact Or.inl ⟨_, List.mem_singleton.1 hw⟩
  have := h _ _ _ a b c 2 1
  revert this
  decide

/-- Non-vacuity for `C220_partial`: a segment of one line and one of four, longer than the right span. -/
example : ∀ file ∈ [[1, 10, 2, 1, 1, 2]], ∀ xs ∈ segTexts fmt file, xs.length ≤ 1 ∨ 3 < xs.length := by
  decide +kernel

end Verif.Cooc
