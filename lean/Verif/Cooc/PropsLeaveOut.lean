import Verif.Cooc.PropsCorrect

/-! # Property theorems C242 (leaving out one word of a corpus) -/

set_option linter.unusedSectionVars false

namespace Verif.Cooc
open Verif.Py Verif.Vocab Verif.Corpus Verif.Window Verif.Engine Verif.Matrix

variable {ℓ μ κ : Type} [LinearOrder κ]

/-! ### Specification -/

/-- How many pairs of `t` and `c` come into reach when `p` and `q` meet: a word `k` places before the gap as `t` with the word as `c` that
is then exactly `R` places after it, and a word as `t` with the word as `c` that is then exactly `L` places before it. -/
def newly (f : Formatter ℓ μ κ) (L R : Nat) (p q : List μ) (t c : κ) : Nat :=
  ((Finset.range R).filter (fun k => p.reverse[k]?.map f.getType = some t ∧ q[R - 1 - k]?.map f.getColloc = some c)).card +
  ((Finset.range L).filter (fun k => q[k]?.map f.getType = some t ∧ p.reverse[L - 1 - k]?.map f.getColloc = some c)).card

/-! ### The text -/

theorem segs_without (f : Formatter ℓ μ κ) (pre post : List ℓ) : ∀ (cur : List (μ × Nat)) (lid : Nat),
    ∃ A B : List (List μ),
      (segsFrom f cur lid (pre ++ post)).map (List.map Prod.fst) = A ++ (soFar f (cur.map Prod.fst) pre ++ toEnd f post) :: B ∧
      ∀ l m, f.matchLine l = some m →
        (segsFrom f cur lid (pre ++ l :: post)).map (List.map Prod.fst) =
          A ++ (soFar f (cur.map Prod.fst) pre ++ m :: toEnd f post) :: B := by
  induction pre with
  | nil =>
    intro cur lid
    obtain ⟨B, hB⟩ := rest_segs f post
    refine ⟨[], B, ?_, fun l m hm => ?_⟩
    · rw [List.nil_append, hB]
      rfl
    · rw [List.nil_append, segsFrom_cons, hm]
      simp only [hB, soFar, List.map_append, List.map_cons, List.map_nil, List.append_assoc, List.singleton_append, List.nil_append]
  | cons l0 pre ih =>
    intro cur lid
    cases hm0 : f.matchLine l0 with
    | some m0 =>
      obtain ⟨A, B, h0, h⟩ := ih (cur ++ [(m0, lid + 1)]) (lid + 1)
      refine ⟨A, B, ?_, fun l m hm => ?_⟩
      · rw [List.cons_append, segsFrom_cons, hm0]
        simp only [h0, soFar, hm0, List.map_append, List.map_cons, List.map_nil]
      · rw [List.cons_append, segsFrom_cons, hm0]
        simp only [h l m hm, soFar, hm0, List.map_append, List.map_cons, List.map_nil]
    | none =>
      by_cases hs : f.isSep l0 = true
      · obtain ⟨A, B, h0, h⟩ := ih [] (lid + 1)
        refine ⟨cur.map Prod.fst :: A, B, ?_, fun l m hm => ?_⟩
        · rw [List.cons_append, segsFrom_cons, hm0]
          simp only [hs, if_true, List.map_cons, h0, soFar, hm0, List.map_nil, List.cons_append]
        · rw [List.cons_append, segsFrom_cons, hm0]
          simp only [hs, if_true, List.map_cons, h l m hm, soFar, hm0, List.map_nil, List.cons_append]
      · obtain ⟨A, B, h0, h⟩ := ih cur (lid + 1)
        refine ⟨A, B, ?_, fun l m hm => ?_⟩
        · rw [List.cons_append, segsFrom_cons, hm0]
          simp only [if_neg hs, h0, soFar, hm0]
        · rw [List.cons_append, segsFrom_cons, hm0]
          simp only [if_neg hs, h l m hm, soFar, hm0]

/-! ### One segment -/

theorem get_before (p q : List μ) (m : μ) {i : Nat} (h : i < p.length) : (p ++ m :: q)[i]? = (p ++ q)[i]? := by
  rw [List.getElem?_append_left h, List.getElem?_append_left h]

theorem get_after (p q : List μ) (m : μ) {i : Nat} (h : p.length ≤ i) : (p ++ m :: q)[i + 1]? = (p ++ q)[i]? := by
  rw [List.getElem?_append_right (by omega), List.getElem?_append_right h, show i + 1 - p.length = (i - p.length) + 1 by omega,
    List.getElem?_cons_succ]

/-- The pairs of the shorter segment that were in reach before. -/
theorem card_kept (f : Formatter ℓ μ κ) (L R : Nat) (p q : List μ) (m : μ) (t c : κ) (hlong : R < p.length + q.length) :
    ((segPairs f L R (p ++ m :: q) t c).filter (fun x => x.1 ≠ p.length ∧ x.2 ≠ p.length)).card =
      ((segPairs f L R (p ++ q) t c).filter (fun x => ¬ (x.1 < p.length ∧ p.length ≤ x.2 ∧ x.2 = x.1 + R) ∧
        ¬ (x.2 < p.length ∧ p.length ≤ x.1 ∧ x.1 = x.2 + L))).card := by
  have l1 : (p ++ m :: q).length = p.length + 1 + q.length := by simp; omega
  have l2 : (p ++ q).length = p.length + q.length := by simp
  let dn : Nat → Nat := fun i => if i < p.length then i else i - 1
  let up : Nat → Nat := fun i => if i < p.length then i else i + 1
  have gup : ∀ i, (p ++ m :: q)[up i]? = (p ++ q)[i]? := by
    intro i
    simp only [up]
    split
    · next h => exact get_before p q m h
    · next h => exact get_after p q m (by omega)
  have hud : ∀ i, i ≠ p.length → up (dn i) = i := by
    intro i hi
    simp only [up, dn]
    split <;> (try split) <;> omega
  have hdu : ∀ i, dn (up i) = i := by
    intro i
    simp only [up, dn]
    split <;> (try split) <;> omega
  have gdn : ∀ i, i ≠ p.length → (p ++ q)[dn i]? = (p ++ m :: q)[i]? := by
    intro i hi
    rw [← gup (dn i), hud i hi]
  refine Finset.card_bij' (fun x _ => (dn x.1, dn x.2)) (fun x _ => (up x.1, up x.2)) ?_ ?_ ?_ ?_
  · rintro ⟨i, j⟩ h
    simp only [segPairs, Finset.mem_filter, Finset.mem_product, Finset.mem_range, l1, l2] at h ⊢
    obtain ⟨⟨⟨h1, h2⟩, -, h4, h5, h6, h7, h8⟩, h9, h10⟩ := h
    rw [gdn i h9, gdn j h10]
    simp only [dn]
    refine ⟨⟨⟨?_, ?_⟩, fun _ => by omega, ?_, ?_, ?_, h7, h8⟩, ?_, ?_⟩ <;> split <;> (try split) <;> omega
  · rintro ⟨i, j⟩ h
    simp only [segPairs, Finset.mem_filter, Finset.mem_product, Finset.mem_range, l1, l2] at h ⊢
    obtain ⟨⟨⟨h1, h2⟩, -, h4, h5, h6, h7, h8⟩, h9, h10⟩ := h
    rw [gup i, gup j]
    simp only [up]
    refine ⟨⟨⟨?_, ?_⟩, fun _ => by omega, ?_, ?_, ?_, h7, h8⟩, ?_, ?_⟩ <;> split <;> (try split) <;> omega
  · rintro ⟨i, j⟩ h
    simp only [Finset.mem_filter] at h
    simp only [hud i h.2.1, hud j h.2.2]
  · rintro ⟨i, j⟩ _
    simp only [hdu]

theorem get_rev (p q : List μ) {k : Nat} (h : k < p.length) : p.reverse[k]? = (p ++ q)[p.length - 1 - k]? := by
  rw [List.getElem?_reverse h, List.getElem?_append_left (by omega)]

/-- The pairs that come into reach. -/
theorem card_newly (f : Formatter ℓ μ κ) (L R : Nat) (p q : List μ) (t c : κ) (hlong : R < p.length + q.length) :
    ((segPairs f L R (p ++ q) t c).filter (fun x => x.1 < p.length ∧ p.length ≤ x.2 ∧ x.2 = x.1 + R)).card +
      ((segPairs f L R (p ++ q) t c).filter (fun x => x.2 < p.length ∧ p.length ≤ x.1 ∧ x.1 = x.2 + L)).card = newly f L R p q t c := by
  have l2 : (p ++ q).length = p.length + q.length := by simp
  unfold newly
  congr 1
  · refine Finset.card_bij' (fun x _ => p.length - 1 - x.1) (fun k _ => (p.length - 1 - k, p.length - 1 - k + R)) ?_ ?_ ?_ ?_
    · rintro ⟨i, j⟩ h
      simp only [segPairs, Finset.mem_filter, Finset.mem_product, Finset.mem_range, l2] at h ⊢
      obtain ⟨⟨⟨h1, h2⟩, -, h4, h5, h6, h7, h8⟩, h9, h10, h11⟩ := h
      refine ⟨by omega, ?_, ?_⟩
      · rw [get_rev p q (by omega), show p.length - 1 - (p.length - 1 - i) = i by omega]
        exact h7
      · rw [List.getElem?_append_right h10] at h8
        rw [show R - 1 - (p.length - 1 - i) = j - p.length by omega]
        exact h8
    · intro k h
      simp only [segPairs, Finset.mem_filter, Finset.mem_product, Finset.mem_range, l2] at h ⊢
      obtain ⟨h1, h2, h3⟩ := h
      have hk : k < p.length := by
        by_contra hk
        rw [List.getElem?_eq_none (by simp; omega)] at h2
        cases h2
      have hq : R - 1 - k < q.length := by
        by_contra hq
        rw [List.getElem?_eq_none (by omega)] at h3
        cases h3
      rw [get_rev p q hk] at h2
      refine ⟨⟨⟨by omega, by omega⟩, fun _ => by omega, by omega, by omega, by omega, h2, ?_⟩, by omega, by omega, trivial⟩
      rw [List.getElem?_append_right (by omega), show p.length - 1 - k + R - p.length = R - 1 - k by omega]
      exact h3
    · rintro ⟨i, j⟩ h
      simp only [Finset.mem_filter] at h
      simp only [Prod.mk.injEq]
      omega
    · intro k h
      simp only [Finset.mem_filter, Finset.mem_range] at h
      have hk : k < p.length := by
        by_contra hk
        have h2 := h.2.1
        rw [List.getElem?_eq_none (by simp; omega)] at h2
        cases h2
      show p.length - 1 - (p.length - 1 - k) = k
      omega
  · refine Finset.card_bij' (fun x _ => x.1 - p.length) (fun k _ => (k + p.length, k + p.length - L)) ?_ ?_ ?_ ?_
    · rintro ⟨i, j⟩ h
      simp only [segPairs, Finset.mem_filter, Finset.mem_product, Finset.mem_range, l2] at h ⊢
      obtain ⟨⟨⟨h1, h2⟩, -, h4, h5, h6, h7, h8⟩, h9, h10, h11⟩ := h
      refine ⟨by omega, ?_, ?_⟩
      · rw [List.getElem?_append_right h10] at h7
        exact h7
      · rw [get_rev p q (by omega), show p.length - 1 - (L - 1 - (i - p.length)) = j by omega]
        exact h8
    · intro k h
      simp only [segPairs, Finset.mem_filter, Finset.mem_product, Finset.mem_range, l2] at h ⊢
      obtain ⟨h1, h2, h3⟩ := h
      have hq : k < q.length := by
        by_contra hq
        rw [List.getElem?_eq_none (by omega)] at h2
        cases h2
      have hk : L - 1 - k < p.length := by
        by_contra hk
        rw [List.getElem?_eq_none (by simp; omega)] at h3
        cases h3
      rw [get_rev p q hk] at h3
      refine ⟨⟨⟨by omega, by omega⟩, fun _ => by omega, by omega, by omega, by omega, ?_, ?_⟩, by omega, by omega, by omega⟩
      · rw [List.getElem?_append_right (by omega), Nat.add_sub_cancel]
        exact h2
      · rw [show k + p.length - L = p.length - 1 - (L - 1 - k) by omega]
        exact h3
    · rintro ⟨i, j⟩ h
      simp only [Finset.mem_filter] at h
      simp only [Prod.mk.injEq]
      omega
    · intro k _
      show k + p.length - p.length = k
      omega

theorem seg_leave_out (f : Formatter ℓ μ κ) (L R : Nat) (p q : List μ) (m : μ) (t c : κ) (hlong : R < p.length + q.length) :
    (segPairs f L R (p ++ q) t c).card + share f L R p q m t c = (segPairs f L R (p ++ m :: q) t c).card + newly f L R p q t c := by
  rw [card_split f L R p q m, card_kept f L R p q m t c hlong, ← card_newly f L R p q t c hlong]
  have e : (segPairs f L R (p ++ q) t c).card =
      ((segPairs f L R (p ++ q) t c).filter (fun x => ¬ (x.1 < p.length ∧ p.length ≤ x.2 ∧ x.2 = x.1 + R) ∧
        ¬ (x.2 < p.length ∧ p.length ≤ x.1 ∧ x.1 = x.2 + L))).card +
      (((segPairs f L R (p ++ q) t c).filter (fun x => x.1 < p.length ∧ p.length ≤ x.2 ∧ x.2 = x.1 + R)).card +
      ((segPairs f L R (p ++ q) t c).filter (fun x => x.2 < p.length ∧ p.length ≤ x.1 ∧ x.1 = x.2 + L)).card) := by
    rw [← Finset.card_union_of_disjoint (s := (segPairs f L R (p ++ q) t c).filter (fun x => x.1 < p.length ∧ p.length ≤ x.2 ∧ x.2 = x.1 + R)),
      ← Finset.card_union_of_disjoint]
    · congr 1
      ext x
      simp only [Finset.mem_union, Finset.mem_filter]
      tauto
    · rw [Finset.disjoint_left]
      intro x h1 h2
      simp only [Finset.mem_union, Finset.mem_filter] at h1 h2
      tauto
    · rw [Finset.disjoint_left]
      intro x h1 h2
      simp only [Finset.mem_filter] at h1 h2
      omega
  rw [e]
  omega

theorem pairCount_leave_out (f : Formatter ℓ μ κ) (L R : Nat) (pre post : List ℓ) {l : ℓ} {m : μ} (hl : f.matchLine l = some m)
    (hlong : R < (soFar f [] pre).length + (toEnd f post).length) (t c : κ) :
    pairCount f L R (pre ++ post) t c + share f L R (soFar f [] pre) (toEnd f post) m t c =
      pairCount f L R (pre ++ l :: post) t c + newly f L R (soFar f [] pre) (toEnd f post) t c := by
  obtain ⟨A, B, h0, h⟩ := segs_without f pre post [] 0
  have e : segTexts f (pre ++ l :: post) = A ++ (soFar f [] pre ++ m :: toEnd f post) :: B := by
    unfold segTexts
    rw [segments_eq]
    exact h l m hl
  have e0 : segTexts f (pre ++ post) = A ++ (soFar f [] pre ++ toEnd f post) :: B := by
    unfold segTexts
    rw [segments_eq]
    exact h0
  have k := seg_leave_out f L R (soFar f [] pre) (toEnd f post) m t c hlong
  have hp : ∀ file, pairCount f L R file t c = ((segTexts f file).map (fun xs => (segPairs f L R xs t c).card)).sum := fun _ => rfl
  rw [hp, hp, e, e0]
  simp only [List.map_append, List.sum_append, List.map_cons, List.sum_cons]
  omega

/-! ## C242 -/

/-- **C242**, exactly: if a word line is left out of a sentence that keeps more than `R` words, the count of every wanted pair loses what
the word contributed and gains the pairs that come into reach over the gap.
Missing: sentences that keep at most `R` words (`C242_false`). -/
theorem C242_exact_partial {f : Formatter ℓ μ κ} {L R : Nat} {rowv colv : Vocab κ} (hrw : Constructed rowv) (hc : Constructed colv)
    {fs gs : List (List ℓ)} {pre post : List ℓ} {l : ℓ} {m : μ} (hl : f.matchLine l = some m)
    (hlong : R < (soFar f [] pre).length + (toEnd f post).length)
    {res res' : Option (Mtx κ Int)} (h : Returns f L R rowv colv (fs ++ (pre ++ l :: post) :: gs) res)
    (h' : Returns f L R rowv colv (fs ++ (pre ++ post) :: gs) res') {t c : κ} (hw : Wanted rowv colv t c) :
    countIn res' t c = countIn res t c - share f L R (soFar f [] pre) (toEnd f post) m t c +
      newly f L R (soFar f [] pre) (toEnd f post) t c := by
  rw [(h.isResult hrw hc).countIn, (h'.isResult hrw hc).countIn]
  unfold totalCount
  rw [if_pos hw, if_pos hw]
  have k := pairCount_leave_out f L R pre post hl hlong t c
  simp only [List.map_append, List.sum_append, List.map_cons, List.sum_cons]
  push_cast
  omega

theorem newly_le (f : Formatter ℓ μ κ) (L R : Nat) (p q : List μ) (t c : κ) : newly f L R p q t c ≤ L + R := by
  unfold newly
  have h1 := Finset.card_filter_le (Finset.range R) (fun k => p.reverse[k]?.map f.getType = some t ∧ q[R - 1 - k]?.map f.getColloc = some c)
  have h2 := Finset.card_filter_le (Finset.range L) (fun k => q[k]?.map f.getType = some t ∧ p.reverse[L - 1 - k]?.map f.getColloc = some c)
  rw [Finset.card_range] at h1 h2
  omega

/-- **C242**, other words: leaving out a word of such a sentence never lowers the count of a pair without this word, and raises it by at
most the two spans.  Missing: as above. -/
theorem C242_others_partial {f : Formatter ℓ μ κ} {L R : Nat} {rowv colv : Vocab κ} (hrw : Constructed rowv) (hc : Constructed colv)
    {fs gs : List (List ℓ)} {pre post : List ℓ} {l : ℓ} {m : μ} (hl : f.matchLine l = some m)
    (hlong : R < (soFar f [] pre).length + (toEnd f post).length)
    {res res' : Option (Mtx κ Int)} (h : Returns f L R rowv colv (fs ++ (pre ++ l :: post) :: gs) res)
    (h' : Returns f L R rowv colv (fs ++ (pre ++ post) :: gs) res') {t c : κ} (ht : t ≠ f.getType m) (hcc : c ≠ f.getColloc m) :
    countIn res t c ≤ countIn res' t c ∧ countIn res' t c ≤ countIn res t c + (L + R) := by
  by_cases hw : Wanted rowv colv t c
  · rw [C242_exact_partial hrw hc hl hlong h h' hw]
    have hn := newly_le f L R (soFar f [] pre) (toEnd f post) t c
    unfold share
    rw [if_neg (Ne.symm ht), if_neg (Ne.symm hcc)]
    push_cast
    omega
  · rw [(h.isResult hrw hc).countIn, (h'.isResult hrw hc).countIn]
    unfold totalCount
    rw [if_neg hw, if_neg hw]
    exact ⟨le_refl _, by positivity⟩

/-- **C242**, at the end: leaving out the first or the last word of such a sentence changes no pair without this word at all.
Missing: as above. -/
theorem C242_ends_partial {f : Formatter ℓ μ κ} {L R : Nat} {rowv colv : Vocab κ} (hrw : Constructed rowv) (hc : Constructed colv)
    {fs gs : List (List ℓ)} {pre post : List ℓ} {l : ℓ} {m : μ} (hl : f.matchLine l = some m)
    (hlong : R < (soFar f [] pre).length + (toEnd f post).length) (hend : soFar f [] pre = [] ∨ toEnd f post = [])
    {res res' : Option (Mtx κ Int)} (h : Returns f L R rowv colv (fs ++ (pre ++ l :: post) :: gs) res)
    (h' : Returns f L R rowv colv (fs ++ (pre ++ post) :: gs) res') {t c : κ} (ht : t ≠ f.getType m) (hcc : c ≠ f.getColloc m) :
    countIn res' t c = countIn res t c := by
  by_cases hw : Wanted rowv colv t c
  · rw [C242_exact_partial hrw hc hl hlong h h' hw]
    have hn : newly f L R (soFar f [] pre) (toEnd f post) t c = 0 := by
      unfold newly
      rcases hend with e | e <;> simp [e]
    unfold share
    rw [if_neg (Ne.symm ht), if_neg (Ne.symm hcc), hn]
    simp
  · rw [(h.isResult hrw hc).countIn, (h'.isResult hrw hc).countIn]
    unfold totalCount
    rw [if_neg hw, if_neg hw]

/-- **C242 fails** for short sentences: with spans (1, 2) the sentence 3 1 2 counts the pair (2, 1) once, and 1 2, where 3 is left out, does
not count it. -/
theorem C242_false : ∃ (res res' : Option (Mtx Nat Int)),
    Returns fmt 1 2 rowv12 Vocab.empty ([] ++ ([] ++ 3 :: [1, 2]) :: []) res ∧ Returns fmt 1 2 rowv12 Vocab.empty ([] ++ ([] ++ [1, 2]) :: []) res' ∧
      fmt.matchLine 3 = some 3 ∧ countIn res 2 1 = 1 ∧ countIn res' 2 1 = 0 := by
  refine ⟨_, _, ⟨1, one, _, le_refl _, by intro i; simp [one], rfl, ⟨rfl, ?_⟩, rfl⟩, ⟨1, one, _, le_refl _, by intro i; simp [one], rfl, ⟨rfl, ?_⟩, rfl⟩, ?_, ?_, ?_⟩
  · intro w hw
    exact Or.inl ⟨_, List.mem_singleton.1 hw⟩
  · intro w hw
    exact Or.inl ⟨_, List.mem_singleton.1 hw⟩
  · decide +kernel
  · decide +kernel
  · decide +kernel

/-- Leaving out 2 in the sentence 1 3 2 1 3 with spans (1, 2): 3 and 1 meet, and the two words 1 and the two words 3 come into reach. -/
example : soFar fmt [] [5, 10, 1, 3] = [1, 3] ∧ toEnd fmt [1, 3, 10, 4] = [1, 3] ∧ fmt.matchLine 2 = some 2 ∧
    newly fmt 1 2 [1, 3] [1, 3] 1 1 = 1 ∧ newly fmt 1 2 [1, 3] [1, 3] 3 3 = 1 ∧ newly fmt 1 2 [1, 3] [1, 3] 1 3 = 1 ∧
    newly fmt 1 2 [1, 3] [1, 3] 3 1 = 0 := by
  decide +kernel

/-- Two runs that meet the hypotheses: the corpus 1 2 1, and 1 1, with spans (1, 0). -/
example : Returns fmt 1 0 rowv12 Vocab.empty ([] ++ ([1] ++ 2 :: [1]) :: []) (some ⟨.sp ⟨.csr, 2, 2, [((0, 1), 1), ((1, 0), 1)]⟩, [1, 2], [1, 2]⟩) ∧
    Returns fmt 1 0 rowv12 Vocab.empty ([] ++ ([1] ++ [1]) :: []) (some ⟨.sp ⟨.csr, 2, 1, [((0, 0), 1)]⟩, [1, 2], [1]⟩) ∧
    0 < (soFar fmt [] [1]).length + (toEnd fmt [1]).length := by
  refine ⟨⟨1, one, _, le_refl _, by intro i; simp [one], rfl, ⟨rfl, ?_⟩, rfl⟩, ⟨1, one, _, le_refl _, by intro i; simp [one], rfl, ⟨rfl, ?_⟩, rfl⟩, by decide⟩
  · intro w hw
    exact Or.inl ⟨_, List.mem_singleton.1 hw⟩
  · intro w hw
    exact Or.inl ⟨_, List.mem_singleton.1 hw⟩

end Verif.Cooc
