import Verif.Cooc.PropsGrand

/-! # Property theorems C237 (spans as long as the sentences) -/

set_option linter.unusedSectionVars false

namespace Verif.Cooc
open Verif.Py Verif.Vocab Verif.Corpus Verif.Window Verif.Engine Verif.Matrix

variable {ℓ μ κ : Type} [LinearOrder κ]

/-! ### Specification -/

/-- The segments of some files. -/
def allSegs (f : Formatter ℓ μ κ) (files : List (List ℓ)) : List (List μ) := files.flatMap (segTexts f)

/-- How often a type occurs among some lines. -/
def typesIn (f : Formatter ℓ μ κ) (t : κ) (xs : List μ) : Nat := xs.countP (fun x => decide (f.getType x = t))

/-- How often a collocate occurs among some lines. -/
def collocsIn (f : Formatter ℓ μ κ) (c : κ) (xs : List μ) : Nat := xs.countP (fun x => decide (f.getColloc x = c))

/-- How many of some lines are both. -/
def bothIn (f : Formatter ℓ μ κ) (t c : κ) (xs : List μ) : Nat :=
  xs.countP (fun x => decide (f.getType x = t ∧ f.getColloc x = c))

/-- The spans reach from every line of a segment to every other one. -/
def WholeSpans (f : Formatter ℓ μ κ) (L R : Nat) (files : List (List ℓ)) : Prop :=
  ∀ xs ∈ allSegs f files, xs.length ≤ L + 1 ∧ xs.length ≤ R + 1

/-- The claim of C237: every type sees all other words of its sentence, so that the count of a pair is the product of the numbers of
both in a sentence, without a line and itself, summed over the sentences. -/
def C237_claim (f : Formatter ℓ μ κ) (L R : Nat) (rowv colv : Vocab κ) (files : List (List ℓ)) : Prop :=
  ∀ res, Returns f L R rowv colv files res → ∀ t c, Wanted rowv colv t c →
    countIn res t c + (((allSegs f files).map (bothIn f t c)).sum : Nat) =
      (((allSegs f files).map (fun xs => typesIn f t xs * collocsIn f c xs)).sum : Nat)

/-! ### One segment -/

/-- Positions among the first `N`. -/
theorem card_first {α : Type} (P : α → Bool) (N : Nat) (xs : List α) :
    ((Finset.range xs.length).filter (fun i => i < N ∧ xs[i]?.map P = some true)).card = (xs.take N).countP P := by
  have h := card_positions P true (xs.take N)
  simp only [Bool.decide_eq_true] at h
  rw [← h]
  congr 1
  ext i
  simp only [Finset.mem_filter, Finset.mem_range, List.length_take, lt_min_iff, List.getElem?_take]
  constructor
  · rintro ⟨a, b, c⟩
    exact ⟨⟨b, a⟩, by rw [if_pos b]; exact c⟩
  · rintro ⟨⟨b, a⟩, c⟩
    rw [if_pos b] at c
    exact ⟨a, b, c⟩

/-- Pairs of different positions with two independent conditions. -/
theorem card_pairs {α : Type} (P Q : α → Bool) (N : Nat) (xs : List α) :
    ((Finset.range xs.length ×ˢ Finset.range xs.length).filter (fun p : Nat × Nat =>
        p.1 < N ∧ p.1 ≠ p.2 ∧ xs[p.1]?.map P = some true ∧ xs[p.2]?.map Q = some true)).card +
      (xs.take N).countP (fun x => P x && Q x) = (xs.take N).countP P * xs.countP Q := by
  have hq : ((Finset.range xs.length).filter (fun i => xs[i]?.map Q = some true)).card = xs.countP Q := by
    have h := card_positions Q true xs
    simpa only [Bool.decide_eq_true] using h
  rw [← card_first P, ← card_first (fun x => P x && Q x), ← hq, ← Finset.card_product]
  have hd : ((Finset.range xs.length).filter (fun i => i < N ∧ xs[i]?.map (fun x => P x && Q x) = some true)).card =
      ((Finset.range xs.length ×ˢ Finset.range xs.length).filter (fun p : Nat × Nat =>
        p.1 < N ∧ p.1 = p.2 ∧ xs[p.1]?.map P = some true ∧ xs[p.2]?.map Q = some true)).card := by
    refine Finset.card_bij (fun i _ => (i, i)) ?_ ?_ ?_
    · intro i hi
      simp only [Finset.mem_filter, Finset.mem_range, Finset.mem_product] at hi ⊢
      refine ⟨⟨hi.1, hi.1⟩, hi.2.1, trivial, ?_⟩
      have := hi.2.2
      rw [List.getElem?_eq_getElem hi.1] at this ⊢
      simp only [Option.map_some, Option.some.injEq, Bool.and_eq_true] at this ⊢
      exact this
    · intro i _ j _ h
      exact (Prod.mk.inj h).1
    · rintro ⟨i, j⟩ h
      simp only [Finset.mem_filter, Finset.mem_range, Finset.mem_product] at h
      obtain ⟨⟨h1, _⟩, h3, rfl, h5, h6⟩ := h
      refine ⟨i, ?_, rfl⟩
      simp only [Finset.mem_filter, Finset.mem_range]
      refine ⟨h1, h3, ?_⟩
      rw [List.getElem?_eq_getElem h1] at h5 h6 ⊢
      simp only [Option.map_some, Option.some.injEq, Bool.and_eq_true] at h5 h6 ⊢
      exact ⟨h5, h6⟩
  rw [hd, ← Finset.card_union_of_disjoint]
  · congr 1
    ext ⟨i, j⟩
    simp only [Finset.mem_union, Finset.mem_filter, Finset.mem_range, Finset.mem_product]
    constructor
    · rintro (⟨⟨a, b⟩, c, _, d, e⟩ | ⟨⟨a, b⟩, c, _, d, e⟩) <;> exact ⟨⟨a, c, d⟩, b, e⟩
    · rintro ⟨⟨a, c, d⟩, b, e⟩
      by_cases h : i = j
      · exact Or.inr ⟨⟨a, b⟩, c, h, d, e⟩
      · exact Or.inl ⟨⟨a, b⟩, c, h, d, e⟩
  · rw [Finset.disjoint_left]
    rintro ⟨i, j⟩ h1 h2
    simp only [Finset.mem_filter] at h1 h2
    exact h1.2.2.1 h2.2.2.1

/-- The lines of a segment that count as targets: the last one does not if the segment has at most `R` lines. -/
def targetLines (R : Nat) (xs : List μ) : List μ := if xs.length ≤ R then xs.dropLast else xs

theorem seg_whole (f : Formatter ℓ μ κ) {L R : Nat} {xs : List μ} (h : xs.length ≤ L + 1 ∧ xs.length ≤ R + 1) (t c : κ) :
    ((Finset.range xs.length ×ˢ Finset.range xs.length).filter (fun p : Nat × Nat =>
      (xs.length ≤ R → p.1 + 1 < xs.length) ∧ p.1 ≠ p.2 ∧ p.1 ≤ p.2 + L ∧ p.2 ≤ p.1 + R ∧
      xs[p.1]?.map f.getType = some t ∧ xs[p.2]?.map f.getColloc = some c)).card + bothIn f t c (targetLines R xs) =
    typesIn f t (targetLines R xs) * collocsIn f c xs := by
  have e : targetLines R xs = xs.take (if xs.length ≤ R then xs.length - 1 else xs.length) := by
    unfold targetLines
    split
    · rw [List.dropLast_eq_take]
    · rw [List.take_length]
  have key := card_pairs (fun x => decide (f.getType x = t)) (fun x => decide (f.getColloc x = c))
    (if xs.length ≤ R then xs.length - 1 else xs.length) xs
  unfold bothIn typesIn collocsIn
  rw [e, ← key]
  have hm : ∀ {g : μ → κ} {u : κ} {i : Nat}, xs[i]?.map g = some u ↔ xs[i]?.map (fun x => decide (g x = u)) = some true := by
    intro g u i
    cases xs[i]? <;> simp
  congr 1
  · congr 1
    apply Finset.filter_congr
    rintro ⟨i, j⟩ hp
    simp only [Finset.mem_product, Finset.mem_range] at hp
    simp only [hm (g := f.getType), hm (g := f.getColloc)]
    constructor
    · rintro ⟨a, b, _, _, d, e⟩
      refine ⟨?_, b, d, e⟩
      split
      · next hR => have := a hR; omega
      · omega
    · rintro ⟨a, b, d, e⟩
      refine ⟨fun hR => ?_, b, by omega, by omega, d, e⟩
      rw [if_pos hR] at a
      omega
  · congr 1
    funext x
    simp

theorem allSegs_sum (f : Formatter ℓ μ κ) (files : List (List ℓ)) (g : List μ → Nat) :
    ((allSegs f files).map g).sum = (files.map (fun file => ((segTexts f file).map g).sum)).sum := by
  unfold allSegs
  induction files with
  | nil => rfl
  | cons a l ih => rw [List.flatMap_cons, List.map_append, List.sum_append, ih, List.map_cons, List.sum_cons]

theorem sum_map_add (l : List (List μ)) (g h : List μ → Nat) :
    (l.map g).sum + (l.map h).sum = (l.map (fun x => g x + h x)).sum := by
  induction l with
  | nil => rfl
  | cons a l ih => simp only [List.map_cons, List.sum_cons, ← ih]; omega

/-! ## C237 -/

/-- **C237**, what is computed: with spans that reach over whole sentences the last line of a sentence of at most `R` lines sees
nothing; all others see all other lines. -/
theorem C237_exact {f : Formatter ℓ μ κ} {L R : Nat} {rowv colv : Vocab κ} (hrw : Constructed rowv) (hc : Constructed colv)
    {files : List (List ℓ)} (hw : WholeSpans f L R files) {res : Option (Mtx κ Int)} (h : Returns f L R rowv colv files res)
    {t c : κ} (hwant : Wanted rowv colv t c) :
    countIn res t c + (((allSegs f files).map (fun xs => bothIn f t c (if xs.length ≤ R then xs.dropLast else xs))).sum : Nat) =
      (((allSegs f files).map (fun xs => typesIn f t (if xs.length ≤ R then xs.dropLast else xs) * collocsIn f c xs)).sum : Nat) := by
  have hk : countIn res t c = (totalCount f L R rowv colv files t c : Int) := by
    have k := h.isResult hrw hc
    cases res with
    | none => rw [k t c]; rfl
    | some m => exact k.1.entry t c
  rw [hk]
  unfold totalCount
  rw [if_pos hwant]
  have e1 : (files.map (fun file => pairCount f L R file t c)).sum = ((allSegs f files).map (fun xs =>
      ((Finset.range xs.length ×ˢ Finset.range xs.length).filter (fun p : Nat × Nat =>
      (xs.length ≤ R → p.1 + 1 < xs.length) ∧ p.1 ≠ p.2 ∧ p.1 ≤ p.2 + L ∧ p.2 ≤ p.1 + R ∧
      xs[p.1]?.map f.getType = some t ∧ xs[p.2]?.map f.getColloc = some c)).card)).sum := by
    rw [allSegs_sum]
    rfl
  rw [e1]
  norm_cast
  rw [sum_map_add]
  congr 1
  refine List.map_congr_left fun xs hxs => ?_
  exact seg_whole f (hw xs hxs) t c

/-- **C237 (partial).** The claim holds if the right span is not longer than needed: every sentence of two or more lines has exactly
`R + 1` lines. -/
theorem C237_partial {f : Formatter ℓ μ κ} {L R : Nat} {rowv colv : Vocab κ} (hrw : Constructed rowv) (hc : Constructed colv)
    {files : List (List ℓ)} (hw : WholeSpans f L R files) (hlen : ∀ xs ∈ allSegs f files, xs.length ≤ 1 ∨ xs.length = R + 1) :
    C237_claim f L R rowv colv files := by
  intro res h t c hwant
  have k := C237_exact hrw hc hw h hwant
  have e : ∀ xs ∈ allSegs f files,
      typesIn f t (if xs.length ≤ R then xs.dropLast else xs) * collocsIn f c xs + bothIn f t c xs =
      typesIn f t xs * collocsIn f c xs + bothIn f t c (if xs.length ≤ R then xs.dropLast else xs) := by
    intro xs hxs
    rcases hlen xs hxs with h1 | h1
    · match xs, h1 with
      | [], _ => simp
      | [x], _ =>
        by_cases hR : [x].length ≤ R
        · rw [if_pos hR]
          by_cases a : f.getType x = t <;> by_cases b : f.getColloc x = c <;> simp [typesIn, collocsIn, bothIn, a, b]
        · rw [if_neg hR]
    · rw [if_neg (by omega)]
  have e' := congrArg List.sum (List.map_congr_left e)
  rw [← sum_map_add, ← sum_map_add] at e'
  omega

/-- The counts are never too high. -/
theorem C237_upper {f : Formatter ℓ μ κ} {L R : Nat} {rowv colv : Vocab κ} (hrw : Constructed rowv) (hc : Constructed colv)
    {files : List (List ℓ)} (hw : WholeSpans f L R files) {res : Option (Mtx κ Int)} (h : Returns f L R rowv colv files res)
    {t c : κ} (hwant : Wanted rowv colv t c) :
    countIn res t c + (((allSegs f files).map (bothIn f t c)).sum : Nat) ≤
      (((allSegs f files).map (fun xs => typesIn f t xs * collocsIn f c xs)).sum : Nat) := by
  have k := C237_exact hrw hc hw h hwant
  have e : ∀ xs : List μ,
      typesIn f t (if xs.length ≤ R then xs.dropLast else xs) * collocsIn f c xs + bothIn f t c xs ≤
      typesIn f t xs * collocsIn f c xs + bothIn f t c (if xs.length ≤ R then xs.dropLast else xs) := by
    intro xs
    split
    · rcases List.eq_nil_or_concat xs with rfl | ⟨ys, y, rfl⟩
      · simp
      · simp only [List.concat_eq_append, List.dropLast_concat]
        unfold typesIn collocsIn bothIn
        simp only [List.countP_append, List.countP_cons, List.countP_nil, Nat.zero_add]
        by_cases a : f.getType y = t <;> by_cases b : f.getColloc y = c <;> simp [a, b] <;> nlinarith
    · exact le_refl _
  have e' : ((allSegs f files).map (fun xs => typesIn f t (if xs.length ≤ R then xs.dropLast else xs) * collocsIn f c xs + bothIn f t c xs)).sum ≤
      ((allSegs f files).map (fun xs => typesIn f t xs * collocsIn f c xs + bothIn f t c (if xs.length ≤ R then xs.dropLast else xs))).sum :=
    List.sum_le_sum fun xs _ => e xs
  rw [← sum_map_add, ← sum_map_add] at e'
  omega

/-- **C237 is false** as it stands: in a corpus of one sentence with spans that are longer than it, the last
word is never a target, so that its pairs with the words before it are missing. -/
theorem C237_false : ¬ C237_claim fmt 2 2 rowv12 Vocab.empty [[1, 2]] := by
  intro h
  have a : Returns fmt 2 2 rowv12 Vocab.empty [[1, 2]] (some ⟨.sp ⟨.csr, 2, 1, [((0, 0), 1)]⟩, [1, 2], [2]⟩) := by
    refine ⟨1, one, _, le_refl _, by intro i; simp [one], rfl, ⟨rfl, ?_⟩, rfl⟩
    intro w hw
    exact Or.inl ⟨_, List.mem_singleton.1 hw⟩
  have := h _ a 2 1 (by decide)
  revert this
  decide +kernel

/-- **C237**, tokens: with such spans (and a right span other than 0, or no empty segment) the contexts of every token that
`retrieve_tokens` finds in a file are all words before it and all words after it in its sentence that the vocabulary keeps. -/
theorem C237_tokens (f : Formatter ℓ μ κ) (L R : Nat) (colv : Option (Vocab κ)) (file : List ℓ) (hw : WholeSpans f L R [file])
    (h0 : ¬(R = 0 ∧ [] ∈ segments f file)) (d : Dict κ (List (Token μ))) :
    ∃ d', updateFile f L R (tokCallbacks f colv) d file = .ok d' ∧
      ∀ t, d'.get? t = (d.get? t).map (· ++ (segments f file).flatMap (fun xs => xs.zipIdx.filterMap (fun p =>
        if f.getType p.1.1 = t then
          some { m := p.1.1, lid := p.1.2
                 left := (xs.take p.2).filter (fun y => keepOf colv (f.getColloc y.1))
                 right := (xs.drop (p.2 + 1)).filter (fun y => keepOf colv (f.getColloc y.1)) }
        else none))) := by
  obtain ⟨d', h1, h2⟩ := (C11_tokens_partial f L R colv file).1 h0 d
  refine ⟨d', h1, fun t => ?_⟩
  rw [h2 t]
  have key : (segments f file).flatMap (tokensOf f (keepOf colv) L R t) =
      (segments f file).flatMap (fun xs => xs.zipIdx.filterMap (fun p =>
        if f.getType p.1.1 = t then
          some { m := p.1.1, lid := p.1.2
                 left := (xs.take p.2).filter (fun y => keepOf colv (f.getColloc y.1))
                 right := (xs.drop (p.2 + 1)).filter (fun y => keepOf colv (f.getColloc y.1)) }
        else none)) := by
    unfold List.flatMap
    congr 1
    refine List.map_congr_left fun xs hxs => ?_
    have hl := hw (xs.map Prod.fst) (by
      unfold allSegs segTexts
      simp only [List.flatMap_cons, List.flatMap_nil, List.append_nil]
      exact List.mem_map.2 ⟨xs, hxs, rfl⟩)
    rw [List.length_map] at hl
    unfold tokensOf
    refine List.filterMap_congr fun p hp => ?_
    have hi : p.2 < xs.length := by
      have := List.snd_lt_of_mem_zipIdx hp
      simpa using this
    have e1 : p.2 - L = 0 := by omega
    have e2 : (xs.drop (p.2 + 1)).take R = xs.drop (p.2 + 1) := List.take_of_length_le (by rw [List.length_drop]; omega)
    rw [e1, e2, List.drop_zero]
  rw [key]

/-- One sentence of three lines with spans (2, 2) meets the conditions, with a repeated word. -/
example : Constructed rowv12 ∧ WholeSpans fmt 2 2 [[1, 2, 1]] ∧ (∀ xs ∈ allSegs fmt [[1, 2, 1]], xs.length ≤ 1 ∨ xs.length = 2 + 1) ∧
    Wanted rowv12 Vocab.empty 1 1 ∧ ((allSegs fmt [[1, 2, 1]]).map (fun xs => typesIn fmt 1 xs * collocsIn fmt 1 xs)).sum = 4 ∧
    ((allSegs fmt [[1, 2, 1]]).map (bothIn fmt 1 1)).sum = 2 ∧ ¬((2 : Nat) = 0 ∧ [] ∈ segments fmt [1, 2, 1]) := by
  refine ⟨⟨by unfold Dict.WF; decide, rfl⟩, ?_, by decide +kernel, by decide, by decide +kernel, by decide +kernel, by decide⟩
  unfold WholeSpans
  decide +kernel

end Verif.Cooc
