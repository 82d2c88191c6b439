import Verif.Cooc.PropsWhole
import Verif.Cooc.PropsSides

/-! # Property theorems C240 (correcting one word of a corpus) -/

set_option linter.unusedSectionVars false

namespace Verif.Cooc
open Verif.Py Verif.Vocab Verif.Corpus Verif.Window Verif.Engine Verif.Matrix

variable {ℓ μ κ : Type} [LinearOrder κ]

/-! ### Specification -/

/-- The words of the current sentence after some lines, if it began with the words `cur`. -/
def soFar (f : Formatter ℓ μ κ) : List μ → List ℓ → List μ
  | cur, [] => cur
  | cur, l :: rest => match f.matchLine l with
    | some m => soFar f (cur ++ [m]) rest
    | none => if f.isSep l then soFar f [] rest else soFar f cur rest

/-- The words up to the end of the current sentence. -/
def toEnd (f : Formatter ℓ μ κ) : List ℓ → List μ
  | [] => []
  | l :: rest => match f.matchLine l with
    | some m => m :: toEnd f rest
    | none => if f.isSep l then [] else toEnd f rest

/-- How often a word between `p` and `q` sees `c`: among the last `L` words before it and the first `R` after it (nothing if it is
the last word of a sentence of at most `R` words). -/
def sees (f : Formatter ℓ μ κ) (L R : Nat) (p q : List μ) (c : κ) : Nat :=
  if p.length + 1 + q.length ≤ R ∧ q = [] then 0
  else collocsIn f c (p.drop (p.length - L)) + collocsIn f c (q.take R)

/-- How often `t` sees a word between `p` and `q`: from the last `R` words before it and the first `L` after it (without the last word
of a sentence of at most `R` words). -/
def seenBy (f : Formatter ℓ μ κ) (L R : Nat) (p q : List μ) (t : κ) : Nat :=
  typesIn f t (p.drop (p.length - R)) + typesIn f t ((if p.length + 1 + q.length ≤ R then q.dropLast else q).take L)

/-- What a word between `p` and `q` contributes to the count of a pair. -/
def share (f : Formatter ℓ μ κ) (L R : Nat) (p q : List μ) (m : μ) (t c : κ) : Nat :=
  (if f.getType m = t then sees f L R p q c else 0) + (if f.getColloc m = c then seenBy f L R p q t else 0)

/-! ### The text -/

theorem rest_segs (f : Formatter ℓ μ κ) (post : List ℓ) : ∃ B : List (List μ), ∀ (cur : List (μ × Nat)) (lid : Nat),
    (segsFrom f cur lid post).map (List.map Prod.fst) = (cur.map Prod.fst ++ toEnd f post) :: B := by
  induction post with
  | nil => exact ⟨[], fun cur lid => by rw [segsFrom_nil]; simp [toEnd]⟩
  | cons l post ih =>
    obtain ⟨B, hB⟩ := ih
    cases hm : f.matchLine l with
    | some m =>
      refine ⟨B, fun cur lid => ?_⟩
      rw [segsFrom_cons, hm]
      simp only [hB, toEnd, hm, List.map_append, List.map_cons, List.map_nil, List.append_assoc, List.singleton_append]
    | none =>
      by_cases hs : f.isSep l = true
      · refine ⟨toEnd f post :: B, fun cur lid => ?_⟩
        rw [segsFrom_cons, hm]
        simp only [hs, if_true, List.map_cons, hB, toEnd, hm, List.map_nil, List.nil_append, List.append_nil]
      · refine ⟨B, fun cur lid => ?_⟩
        rw [segsFrom_cons, hm]
        simp only [if_neg hs, hB, toEnd, hm]

theorem segs_at (f : Formatter ℓ μ κ) (pre post : List ℓ) : ∀ (cur : List (μ × Nat)) (lid : Nat),
    ∃ A B : List (List μ), ∀ l m, f.matchLine l = some m →
      (segsFrom f cur lid (pre ++ l :: post)).map (List.map Prod.fst) =
        A ++ (soFar f (cur.map Prod.fst) pre ++ m :: toEnd f post) :: B := by
  induction pre with
  | nil =>
    intro cur lid
    obtain ⟨B, hB⟩ := rest_segs f post
    refine ⟨[], B, fun l m hm => ?_⟩
    rw [List.nil_append, segsFrom_cons, hm]
    simp only [hB, soFar, List.map_append, List.map_cons, List.map_nil, List.append_assoc, List.singleton_append, List.nil_append]
  | cons l0 pre ih =>
    intro cur lid
    cases hm0 : f.matchLine l0 with
    | some m0 =>
      obtain ⟨A, B, h⟩ := ih (cur ++ [(m0, lid + 1)]) (lid + 1)
      refine ⟨A, B, fun l m hm => ?_⟩
      rw [List.cons_append, segsFrom_cons, hm0]
      simp only [h l m hm, soFar, hm0, List.map_append, List.map_cons, List.map_nil]
    | none =>
      by_cases hs : f.isSep l0 = true
      · obtain ⟨A, B, h⟩ := ih [] (lid + 1)
        refine ⟨cur.map Prod.fst :: A, B, fun l m hm => ?_⟩
        rw [List.cons_append, segsFrom_cons, hm0]
        simp only [hs, if_true, List.map_cons, h l m hm, soFar, hm0, List.map_nil, List.cons_append]
      · obtain ⟨A, B, h⟩ := ih cur (lid + 1)
        refine ⟨A, B, fun l m hm => ?_⟩
        rw [List.cons_append, segsFrom_cons, hm0]
        simp only [if_neg hs, h l m hm, soFar, hm0]

/-! ### One segment -/

theorem card_between {α : Type} (g : α → κ) (u : κ) (a b : Nat) (xs : List α) :
    ((Finset.range xs.length).filter (fun j => (a ≤ j ∧ j < b) ∧ xs[j]?.map g = some u)).card =
      ((xs.take b).drop a).countP (fun x => decide (g x = u)) := by
  rw [← card_positions g u ((xs.take b).drop a)]
  refine Finset.card_bij' (fun j _ => j - a) (fun j _ => j + a) ?_ ?_ ?_ ?_
  · intro j hj
    simp only [Finset.mem_filter, Finset.mem_range, List.length_drop, List.length_take, List.getElem?_drop, List.getElem?_take] at hj ⊢
    refine ⟨by omega, ?_⟩
    rw [show a + (j - a) = j by omega, if_pos hj.2.1.2]
    exact hj.2.2
  · intro j hj
    simp only [Finset.mem_filter, Finset.mem_range, List.length_drop, List.length_take, List.getElem?_drop, List.getElem?_take] at hj ⊢
    obtain ⟨h1, h2⟩ := hj
    rw [if_pos (by omega)] at h2
    refine ⟨by omega, ⟨by omega, by omega⟩, ?_⟩
    rw [Nat.add_comm]
    exact h2
  · intro j hj
    simp only [Finset.mem_filter] at hj
    omega
  · intro j hj
    omega

theorem card_two {α : Type} (g : α → κ) (u : κ) {a b a' b' : Nat} (hb : b ≤ a') (xs : List α) :
    ((Finset.range xs.length).filter (fun j => ((a ≤ j ∧ j < b) ∨ (a' ≤ j ∧ j < b')) ∧ xs[j]?.map g = some u)).card =
      ((xs.take b).drop a).countP (fun x => decide (g x = u)) + ((xs.take b').drop a').countP (fun x => decide (g x = u)) := by
  rw [← card_between g u a b xs, ← card_between g u a' b' xs, ← Finset.card_union_of_disjoint]
  · congr 1
    ext j
    simp only [Finset.mem_filter, Finset.mem_union, Finset.mem_range]
    tauto
  · rw [Finset.disjoint_left]
    intro j h1 h2
    simp only [Finset.mem_filter] at h1 h2
    omega

theorem take_here (p q : List μ) (m : μ) (a : Nat) : ((p ++ m :: q).take p.length).drop a = p.drop a := by
  rw [List.take_left']
  rfl

theorem take_after (p q : List μ) (m : μ) (b : Nat) : ((p ++ m :: q).take (p.length + 1 + b)).drop (p.length + 1) = q.take b := by
  rw [show p ++ m :: q = (p ++ [m]) ++ q by simp, List.drop_take, List.drop_left' (by simp)]
  congr 1
  omega

theorem card_target (f : Formatter ℓ μ κ) (L R : Nat) (p q : List μ) (m : μ) (t c : κ) :
    ((segPairs f L R (p ++ m :: q) t c).filter (fun x => x.1 = p.length)).card = if f.getType m = t then sees f L R p q c else 0 := by
  have hlen : (p ++ m :: q).length = p.length + 1 + q.length := by simp; omega
  have hk : (p ++ m :: q)[p.length]? = some m := by simp
  by_cases ht : f.getType m = t
  · rw [if_pos ht]
    unfold sees
    by_cases hlast : p.length + 1 + q.length ≤ R ∧ q = []
    · rw [if_pos hlast, Finset.card_eq_zero, Finset.filter_eq_empty_iff]
      rintro ⟨i, j⟩ hij he
      simp only [segPairs, Finset.mem_filter, Finset.mem_product, Finset.mem_range] at hij he
      have h1 := hij.2.1 (by rw [hlen]; exact hlast.1)
      have h2 := hlast.2
      subst h2
      simp at h1
      omega
    · rw [if_neg hlast]
      have key := card_two f.getColloc c (a := p.length - L) (b := p.length) (a' := p.length + 1) (b' := p.length + 1 + R) (by omega) (p ++ m :: q)
      rw [take_here, take_after] at key
      unfold collocsIn
      rw [← key]
      refine Finset.card_bij' (fun x _ => x.2) (fun j _ => (p.length, j)) ?_ ?_ ?_ ?_
      · rintro ⟨i, j⟩ hx
        simp only [segPairs, Finset.mem_filter, Finset.mem_product, Finset.mem_range] at hx ⊢
        obtain ⟨⟨⟨-, h2⟩, -, h4, h5, h6, -, h8⟩, rfl⟩ := hx
        exact ⟨h2, by omega, h8⟩
      · intro j hj
        simp only [segPairs, Finset.mem_filter, Finset.mem_product, Finset.mem_range] at hj ⊢
        obtain ⟨h1, h2, h3⟩ := hj
        refine ⟨⟨⟨by rw [hlen]; omega, h1⟩, ?_, by omega, by omega, by omega, by rw [hk, Option.map_some, ht], h3⟩, trivial⟩
        intro hR
        rw [hlen] at hR ⊢
        have : q ≠ [] := fun e => hlast ⟨hR, e⟩
        have := List.length_pos_of_ne_nil this
        omega
      · rintro ⟨i, j⟩ hx
        simp only [Finset.mem_filter] at hx
        rw [← hx.2]
      · intro j _
        rfl
  · rw [if_neg ht, Finset.card_eq_zero, Finset.filter_eq_empty_iff]
    rintro ⟨i, j⟩ hij he
    simp only [segPairs, Finset.mem_filter] at hij he
    have h1 := hij.2.2.2.2.2.1
    rw [he, hk, Option.map_some] at h1
    exact ht (Option.some.inj h1)

theorem card_context (f : Formatter ℓ μ κ) (L R : Nat) (p q : List μ) (m : μ) (t c : κ) :
    ((segPairs f L R (p ++ m :: q) t c).filter (fun x => x.2 = p.length)).card = if f.getColloc m = c then seenBy f L R p q t else 0 := by
  have hlen : (p ++ m :: q).length = p.length + 1 + q.length := by simp; omega
  have hk : (p ++ m :: q)[p.length]? = some m := by simp
  by_cases hc : f.getColloc m = c
  · rw [if_pos hc]
    unfold seenBy
    have key := card_two f.getType t (a := p.length - R) (b := p.length) (a' := p.length + 1)
      (b' := p.length + 1 + min L (if p.length + 1 + q.length ≤ R then q.length - 1 else q.length)) (by omega) (p ++ m :: q)
    rw [take_here, take_after] at key
    have e : (if p.length + 1 + q.length ≤ R then q.dropLast else q).take L =
        q.take (min L (if p.length + 1 + q.length ≤ R then q.length - 1 else q.length)) := by
      split
      · rw [List.dropLast_eq_take, List.take_take]
      · exact List.take_eq_take_min
    unfold typesIn
    rw [e, ← key]
    refine Finset.card_bij' (fun x _ => x.1) (fun i _ => (i, p.length)) ?_ ?_ ?_ ?_
    · rintro ⟨i, j⟩ hx
      simp only [segPairs, Finset.mem_filter, Finset.mem_product, Finset.mem_range, hlen] at hx ⊢
      obtain ⟨⟨⟨h1, h2⟩, h3, h4, h5, h6, h7, h8⟩, rfl⟩ := hx
      refine ⟨h1, ?_, h7⟩
      rcases Nat.lt_or_gt_of_ne h4 with h | h
      · exact Or.inl ⟨by omega, h⟩
      · refine Or.inr ⟨h, ?_⟩
        split
        · next hR => have := h3 hR; omega
        · omega
    · intro i hi
      simp only [segPairs, Finset.mem_filter, Finset.mem_product, Finset.mem_range, hlen] at hi ⊢
      obtain ⟨h1, h2, h3⟩ := hi
      have h4 : p.length + 1 + q.length ≤ R → i + 1 < p.length + 1 + q.length := by
        intro hR
        rw [if_pos hR] at h2
        omega
      refine ⟨⟨⟨h1, by omega⟩, h4, by omega, ?_, by omega, h3, by rw [hk, Option.map_some, hc]⟩, trivial⟩
      rcases h2 with h | h
      · omega
      · have := Nat.min_le_left L (if p.length + 1 + q.length ≤ R then q.length - 1 else q.length)
        omega
    · rintro ⟨i, j⟩ hx
      simp only [Finset.mem_filter] at hx
      rw [← hx.2]
    · intro j _
      rfl
  · rw [if_neg hc, Finset.card_eq_zero, Finset.filter_eq_empty_iff]
    rintro ⟨i, j⟩ hij he
    simp only [segPairs, Finset.mem_filter] at hij he
    have h1 := hij.2.2.2.2.2.2
    rw [he, hk, Option.map_some] at h1
    exact hc (Option.some.inj h1)

theorem card_others (f : Formatter ℓ μ κ) (L R : Nat) (p q : List μ) (m m' : μ) (t c : κ) :
    (segPairs f L R (p ++ m :: q) t c).filter (fun x => x.1 ≠ p.length ∧ x.2 ≠ p.length) =
      (segPairs f L R (p ++ m' :: q) t c).filter (fun x => x.1 ≠ p.length ∧ x.2 ≠ p.length) := by
  have hget : ∀ i, i ≠ p.length → (p ++ m :: q)[i]? = (p ++ m' :: q)[i]? := by
    intro i hi
    rcases Nat.lt_or_gt_of_ne hi with h | h
    · rw [List.getElem?_append_left h, List.getElem?_append_left h]
    · rw [List.getElem?_append_right (by omega), List.getElem?_append_right (by omega)]
      rw [show i - p.length = (i - p.length - 1) + 1 by omega, List.getElem?_cons_succ, List.getElem?_cons_succ]
  have hlen : (p ++ m :: q).length = (p ++ m' :: q).length := by simp
  ext ⟨i, j⟩
  simp only [segPairs, Finset.mem_filter, Finset.mem_product, Finset.mem_range, hlen]
  constructor
  · rintro ⟨h, h1, h2⟩
    rw [hget i h1, hget j h2] at h
    exact ⟨h, h1, h2⟩
  · rintro ⟨h, h1, h2⟩
    rw [← hget i h1, ← hget j h2] at h
    exact ⟨h, h1, h2⟩

theorem card_split (f : Formatter ℓ μ κ) (L R : Nat) (p q : List μ) (m : μ) (t c : κ) :
    (segPairs f L R (p ++ m :: q) t c).card =
      ((segPairs f L R (p ++ m :: q) t c).filter (fun x => x.1 ≠ p.length ∧ x.2 ≠ p.length)).card + share f L R p q m t c := by
  unfold share
  rw [← card_target f L R p q m t c, ← card_context f L R p q m t c]
  rw [← Finset.card_union_of_disjoint (s := (segPairs f L R (p ++ m :: q) t c).filter (fun x => x.1 = p.length)),
    ← Finset.card_union_of_disjoint]
  · congr 1
    ext x
    simp only [Finset.mem_union, Finset.mem_filter]
    tauto
  · rw [Finset.disjoint_left]
    intro x h1 h2
    simp only [Finset.mem_union, Finset.mem_filter] at h1 h2
    tauto
  · rw [Finset.disjoint_left]
    intro x h1 h2
    simp only [segPairs, Finset.mem_filter] at h1 h2
    exact h1.1.2.2.1 (h1.2.trans h2.2.symm)

theorem seg_correct (f : Formatter ℓ μ κ) (L R : Nat) (p q : List μ) (m m' : μ) (t c : κ) :
    (segPairs f L R (p ++ m :: q) t c).card + share f L R p q m' t c =
      (segPairs f L R (p ++ m' :: q) t c).card + share f L R p q m t c := by
  rw [card_split f L R p q m, card_split f L R p q m', card_others f L R p q m m']
  omega

theorem pairCount_correct (f : Formatter ℓ μ κ) (L R : Nat) (pre post : List ℓ) {l l' : ℓ} {m m' : μ} (hl : f.matchLine l = some m)
    (hl' : f.matchLine l' = some m') (t c : κ) :
    pairCount f L R (pre ++ l :: post) t c + share f L R (soFar f [] pre) (toEnd f post) m' t c =
      pairCount f L R (pre ++ l' :: post) t c + share f L R (soFar f [] pre) (toEnd f post) m t c := by
  obtain ⟨A, B, h⟩ := segs_at f pre post [] 0
  have e : ∀ {l m}, f.matchLine l = some m → segTexts f (pre ++ l :: post) = A ++ (soFar f [] pre ++ m :: toEnd f post) :: B := by
    intro l m hm
    unfold segTexts
    rw [segments_eq]
    exact h l m hm
  have k := seg_correct f L R (soFar f [] pre) (toEnd f post) m m' t c
  have hp : ∀ file, pairCount f L R file t c = ((segTexts f file).map (fun xs => (segPairs f L R xs t c).card)).sum := fun _ => rfl
  rw [hp, hp, e hl, e hl']
  simp only [List.map_append, List.sum_append, List.map_cons, List.sum_cons]
  omega

/-! ## C240 -/

/-- **C240**, exactly: if one word line of a corpus is replaced by another one, the count of every wanted pair changes by the
difference of what the two words contribute in their sentence. -/
theorem C240_exact {f : Formatter ℓ μ κ} {L R : Nat} {rowv colv : Vocab κ} (hrw : Constructed rowv) (hc : Constructed colv)
    {fs gs : List (List ℓ)} {pre post : List ℓ} {l l' : ℓ} {m m' : μ} (hl : f.matchLine l = some m) (hl' : f.matchLine l' = some m')
    {res res' : Option (Mtx κ Int)} (h : Returns f L R rowv colv (fs ++ (pre ++ l :: post) :: gs) res)
    (h' : Returns f L R rowv colv (fs ++ (pre ++ l' :: post) :: gs) res') {t c : κ} (hw : Wanted rowv colv t c) :
    countIn res' t c = countIn res t c - share f L R (soFar f [] pre) (toEnd f post) m t c +
      share f L R (soFar f [] pre) (toEnd f post) m' t c := by
  rw [(h.isResult hrw hc).countIn, (h'.isResult hrw hc).countIn]
  unfold totalCount
  rw [if_pos hw, if_pos hw]
  have k := pairCount_correct f L R pre post hl hl' t c
  simp only [List.map_append, List.sum_append, List.map_cons, List.sum_cons]
  push_cast
  omega

theorem sees_le (f : Formatter ℓ μ κ) (L R : Nat) (p q : List μ) (c : κ) : sees f L R p q c ≤ L + R := by
  unfold sees
  split
  · omega
  · have h1 := List.countP_le_length (p := fun x => decide (f.getColloc x = c)) (l := p.drop (p.length - L))
    have h2 := List.countP_le_length (p := fun x => decide (f.getColloc x = c)) (l := q.take R)
    rw [List.length_drop] at h1
    rw [List.length_take] at h2
    unfold collocsIn
    omega

theorem seenBy_le (f : Formatter ℓ μ κ) (L R : Nat) (p q : List μ) (t : κ) : seenBy f L R p q t ≤ L + R := by
  unfold seenBy
  have h1 := List.countP_le_length (p := fun x => decide (f.getType x = t)) (l := p.drop (p.length - R))
  have h2 := List.countP_le_length (p := fun x => decide (f.getType x = t))
    (l := (if p.length + 1 + q.length ≤ R then q.dropLast else q).take L)
  rw [List.length_drop] at h1
  rw [List.length_take] at h2
  unfold typesIn
  omega

/-- **C240**, other words: the counts of pairs without the old and the new word stay the same. -/
theorem C240_others {f : Formatter ℓ μ κ} {L R : Nat} {rowv colv : Vocab κ} (hrw : Constructed rowv) (hc : Constructed colv)
    {fs gs : List (List ℓ)} {pre post : List ℓ} {l l' : ℓ} {m m' : μ} (hl : f.matchLine l = some m) (hl' : f.matchLine l' = some m')
    {res res' : Option (Mtx κ Int)} (h : Returns f L R rowv colv (fs ++ (pre ++ l :: post) :: gs) res)
    (h' : Returns f L R rowv colv (fs ++ (pre ++ l' :: post) :: gs) res') {t c : κ} (ht : t ≠ f.getType m) (ht' : t ≠ f.getType m')
    (hcc : c ≠ f.getColloc m) (hcc' : c ≠ f.getColloc m') : countIn res' t c = countIn res t c := by
  by_cases hw : Wanted rowv colv t c
  · rw [C240_exact hrw hc hl hl' h h' hw]
    unfold share
    rw [if_neg (Ne.symm ht), if_neg (Ne.symm ht'), if_neg (Ne.symm hcc), if_neg (Ne.symm hcc')]
    simp
  · rw [(h.isResult hrw hc).countIn, (h'.isResult hrw hc).countIn]
    unfold totalCount
    rw [if_neg hw, if_neg hw]

/-- **C240**, bounds: no count changes by more than twice the two spans, and in the rows of other words by no more than the two
spans. -/
theorem C240_bound {f : Formatter ℓ μ κ} {L R : Nat} {rowv colv : Vocab κ} (hrw : Constructed rowv) (hc : Constructed colv)
    {fs gs : List (List ℓ)} {pre post : List ℓ} {l l' : ℓ} {m m' : μ} (hl : f.matchLine l = some m) (hl' : f.matchLine l' = some m')
    {res res' : Option (Mtx κ Int)} (h : Returns f L R rowv colv (fs ++ (pre ++ l :: post) :: gs) res)
    (h' : Returns f L R rowv colv (fs ++ (pre ++ l' :: post) :: gs) res') (t c : κ) :
    |countIn res' t c - countIn res t c| ≤ 2 * (L + R) ∧
      (t ≠ f.getType m → t ≠ f.getType m' → |countIn res' t c - countIn res t c| ≤ L + R) := by
  have h1 := sees_le f L R (soFar f [] pre) (toEnd f post) c
  have h2 := seenBy_le f L R (soFar f [] pre) (toEnd f post) t
  by_cases hw : Wanted rowv colv t c
  · rw [C240_exact hrw hc hl hl' h h' hw]
    unfold share
    constructor
    · rw [abs_le]
      split_ifs <;> push_cast <;> constructor <;> omega
    · intro ht ht'
      rw [if_neg (Ne.symm ht), if_neg (Ne.symm ht'), abs_le]
      split_ifs <;> push_cast <;> constructor <;> omega
  · rw [(h.isResult hrw hc).countIn, (h'.isResult hrw hc).countIn]
    unfold totalCount
    rw [if_neg hw, if_neg hw]
    constructor
    · rw [abs_le]; constructor <;> push_cast <;> omega
    · intro _ _
      rw [abs_le]; constructor <;> push_cast <;> omega

/-- The word 2 in the sentence 1 2 1 3 is corrected to 3. -/
example : soFar fmt [] [5, 10, 1] = [1] ∧ toEnd fmt [1, 3, 10, 4] = [1, 3] ∧ fmt.matchLine 2 = some 2 ∧ fmt.matchLine 3 = some 3 ∧
    share fmt 1 1 [1] [1, 3] 2 1 2 = 2 ∧ share fmt 1 1 [1] [1, 3] 3 1 2 = 0 ∧ share fmt 1 1 [1] [1, 3] 3 1 3 = 2 := by
  decide +kernel

/-- Two runs that meet the hypotheses: the corpus 1 2, and 2 corrected to 1. -/
example : Returns fmt 1 1 rowv12 Vocab.empty ([] ++ ([1] ++ 2 :: []) :: []) (some ⟨.sp ⟨.csr, 2, 2, [((0, 1), 1), ((1, 0), 1)]⟩, [1, 2], [1, 2]⟩) ∧
    Returns fmt 1 1 rowv12 Vocab.empty ([] ++ ([1] ++ 1 :: []) :: []) (some ⟨.sp ⟨.csr, 2, 1, [((0, 0), 2)]⟩, [1, 2], [1]⟩) := by
  refine ⟨⟨1, one, _, le_refl _, by intro i; simp [one], rfl, ⟨rfl, ?_⟩, rfl⟩, ⟨1, one, _, le_refl _, by intro i; simp [one], rfl, ⟨rfl, ?_⟩, rfl⟩⟩
  · intro w hw
    exact Or.inl ⟨_, List.mem_singleton.1 hw⟩
  · intro w hw
    exact Or.inl ⟨_, List.mem_singleton.1 hw⟩

end Verif.Cooc
