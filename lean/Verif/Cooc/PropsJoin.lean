import Verif.Cooc.PropsLeaveOut

/-! # Property theorems C244 (joining two sentences of a corpus) -/

set_option linter.unusedSectionVars false

namespace Verif.Cooc
open Verif.Py Verif.Vocab Verif.Corpus Verif.Window Verif.Engine Verif.Matrix

variable {ℓ μ κ : Type} [LinearOrder κ]

/-! ### Specification -/

/-- How many pairs of `t` and `c` are in reach over the border of `p` and `q`: `k` words between a word of `p` and the border and `j` words
between the border and a word of `q`. -/
def across (f : Formatter ℓ μ κ) (L R : Nat) (p q : List μ) (t c : κ) : Nat :=
  ((Finset.range R ×ˢ Finset.range R).filter (fun x : Nat × Nat => x.1 + x.2 < R ∧ p.reverse[x.1]?.map f.getType = some t ∧
    q[x.2]?.map f.getColloc = some c)).card +
  ((Finset.range L ×ˢ Finset.range L).filter (fun x : Nat × Nat => x.1 + x.2 < L ∧ p.reverse[x.1]?.map f.getColloc = some c ∧
    q[x.2]?.map f.getType = some t)).card

/-- What the last word of a sentence of at most `R` words does not count. -/
def lastWord (f : Formatter ℓ μ κ) (L R : Nat) (xs : List μ) (t c : κ) : Nat :=
  if xs.length ≤ R ∧ xs.getLast?.map f.getType = some t then collocsIn f c (xs.dropLast.drop (xs.length - 1 - L)) else 0

/-! ### The text -/

theorem segs_joined (f : Formatter ℓ μ κ) (pre post : List ℓ) : ∀ (cur : List (μ × Nat)) (lid : Nat),
    ∃ A B : List (List μ),
      (segsFrom f cur lid (pre ++ post)).map (List.map Prod.fst) = A ++ (soFar f (cur.map Prod.fst) pre ++ toEnd f post) :: B ∧
      ∀ s, f.matchLine s = none → f.isSep s = true →
        (segsFrom f cur lid (pre ++ s :: post)).map (List.map Prod.fst) = A ++ soFar f (cur.map Prod.fst) pre :: toEnd f post :: B := by
  induction pre with
  | nil =>
    intro cur lid
    obtain ⟨B, hB⟩ := rest_segs f post
    refine ⟨[], B, ?_, fun s hm hs => ?_⟩
    · rw [List.nil_append, hB]
      rfl
    · rw [List.nil_append, segsFrom_cons, hm]
      simp only [hs, if_true, hB, soFar, List.map_cons, List.map_nil, List.nil_append]
  | cons l0 pre ih =>
    intro cur lid
    cases hm0 : f.matchLine l0 with
    | some m0 =>
      obtain ⟨A, B, h0, h⟩ := ih (cur ++ [(m0, lid + 1)]) (lid + 1)
      refine ⟨A, B, ?_, fun s hm hs => ?_⟩
      · rw [List.cons_append, segsFrom_cons, hm0]
        simp only [h0, soFar, hm0, List.map_append, List.map_cons, List.map_nil]
      · rw [List.cons_append, segsFrom_cons, hm0]
        simp only [h s hm hs, soFar, hm0, List.map_append, List.map_cons, List.map_nil]
    | none =>
      by_cases hs0 : f.isSep l0 = true
      · obtain ⟨A, B, h0, h⟩ := ih [] (lid + 1)
        refine ⟨cur.map Prod.fst :: A, B, ?_, fun s hm hs => ?_⟩
        · rw [List.cons_append, segsFrom_cons, hm0]
          simp only [hs0, if_true, List.map_cons, h0, soFar, hm0, List.map_nil, List.cons_append]
        · rw [List.cons_append, segsFrom_cons, hm0]
          simp only [hs0, if_true, List.map_cons, h s hm hs, soFar, hm0, List.map_nil, List.cons_append]
      · obtain ⟨A, B, h0, h⟩ := ih cur (lid + 1)
        refine ⟨A, B, ?_, fun s hm hs => ?_⟩
        · rw [List.cons_append, segsFrom_cons, hm0]
          simp only [if_neg hs0, h0, soFar, hm0]
        · rw [List.cons_append, segsFrom_cons, hm0]
          simp only [if_neg hs0, h s hm hs, soFar, hm0]

/-! ### One segment -/

/-- All pairs within the spans, also those of the last word of a short segment. -/
def nearPairs (f : Formatter ℓ μ κ) (L R : Nat) (xs : List μ) (t c : κ) : Finset (Nat × Nat) :=
  (Finset.range xs.length ×ˢ Finset.range xs.length).filter (fun p : Nat × Nat =>
      p.1 ≠ p.2 ∧ p.1 ≤ p.2 + L ∧ p.2 ≤ p.1 + R ∧ xs[p.1]?.map f.getType = some t ∧ xs[p.2]?.map f.getColloc = some c)

theorem seg_near (f : Formatter ℓ μ κ) (L R : Nat) (xs : List μ) (t c : κ) :
    (segPairs f L R xs t c).card + lastWord f L R xs t c = (nearPairs f L R xs t c).card := by
  have e : (nearPairs f L R xs t c).card = (segPairs f L R xs t c).card +
      ((nearPairs f L R xs t c).filter (fun x => xs.length ≤ R ∧ x.1 + 1 = xs.length)).card := by
    rw [← Finset.card_union_of_disjoint]
    · congr 1
      ext ⟨i, j⟩
      simp only [segPairs, nearPairs, Finset.mem_union, Finset.mem_filter, Finset.mem_product, Finset.mem_range]
      constructor
      · rintro ⟨h1, h2⟩
        by_cases h : xs.length ≤ R ∧ i + 1 = xs.length
        · exact Or.inr ⟨⟨h1, h2⟩, h⟩
        · exact Or.inl ⟨h1, fun hl => by omega, h2⟩
      · rintro (⟨h1, h2, h3⟩ | h)
        · exact ⟨h1, h3⟩
        · exact h.1
    · rw [Finset.disjoint_left]
      rintro ⟨i, j⟩ h1 h2
      simp only [segPairs, Finset.mem_filter] at h1 h2
      have := h1.2.1 h2.2.1
      omega
  rw [e]
  congr 1
  unfold lastWord
  rcases List.eq_nil_or_concat xs with rfl | ⟨p, m, rfl⟩
  · simp
  · rw [List.concat_eq_append]
    have hlen : (p ++ [m]).length = p.length + 1 := by simp
    have hlast : (p ++ [m]).getLast? = some m := by simp
    have hk : (p ++ [m])[p.length]? = some m := by simp
    rw [hlast, hlen, List.dropLast_concat, Option.map_some, Nat.add_sub_cancel]
    by_cases hs : p.length + 1 ≤ R ∧ some (f.getType m) = some t
    · rw [if_pos hs]
      have key := card_between f.getColloc c (p.length - L) p.length (p ++ [m])
      rw [List.take_left' rfl] at key
      unfold collocsIn
      rw [← key]
      refine Finset.card_bij' (fun j _ => (p.length, j)) (fun x _ => x.2) ?_ ?_ ?_ ?_
      · intro j hj
        simp only [nearPairs, Finset.mem_filter, Finset.mem_product, Finset.mem_range, hlen] at hj ⊢
        obtain ⟨h1, h2, h3⟩ := hj
        exact ⟨⟨⟨by omega, h1⟩, by omega, by omega, by omega, by rw [hk, Option.map_some]; exact hs.2, h3⟩, hs.1, trivial⟩
      · rintro ⟨i, j⟩ hx
        simp only [nearPairs, Finset.mem_filter, Finset.mem_product, Finset.mem_range, hlen] at hx ⊢
        obtain ⟨⟨⟨h1, h2⟩, h3, h4, h5, h6, h7⟩, h8, h9⟩ := hx
        exact ⟨h2, by omega, h7⟩
      · intro j _
        rfl
      · rintro ⟨i, j⟩ hx
        simp only [Finset.mem_filter] at hx
        simp only [Prod.mk.injEq, and_true]
        omega
    · rw [if_neg hs, eq_comm, Finset.card_eq_zero, Finset.filter_eq_empty_iff]
      rintro ⟨i, j⟩ hx ⟨h1, h2⟩
      simp only [nearPairs, Finset.mem_filter, hlen] at hx h1 h2
      have h3 := hx.2.2.2.2.1
      rw [show i = p.length by omega, hk, Option.map_some] at h3
      exact hs ⟨h1, h3⟩

theorem near_joined (f : Formatter ℓ μ κ) (L R : Nat) (p q : List μ) (t c : κ) :
    (nearPairs f L R (p ++ q) t c).card = (nearPairs f L R p t c).card + (nearPairs f L R q t c).card + across f L R p q t c := by
  have l2 : (p ++ q).length = p.length + q.length := by simp
  have gl : ∀ {i : Nat}, i < p.length → (p ++ q)[i]? = p[i]? := fun h => List.getElem?_append_left h
  have gr : ∀ {i : Nat}, p.length ≤ i → (p ++ q)[i]? = q[i - p.length]? := fun h => List.getElem?_append_right h
  have e1 : (nearPairs f L R p t c).card = ((nearPairs f L R (p ++ q) t c).filter (fun x => x.1 < p.length ∧ x.2 < p.length)).card := by
    refine Finset.card_bij' (fun x _ => x) (fun x _ => x) ?_ ?_ (fun _ _ => rfl) (fun _ _ => rfl)
    · rintro ⟨i, j⟩ h
      simp only [nearPairs, Finset.mem_filter, Finset.mem_product, Finset.mem_range, l2] at h ⊢
      obtain ⟨⟨h1, h2⟩, h3, h4, h5, h6, h7⟩ := h
      exact ⟨⟨⟨by omega, by omega⟩, h3, h4, h5, by rw [gl h1]; exact h6, by rw [gl h2]; exact h7⟩, h1, h2⟩
    · rintro ⟨i, j⟩ h
      simp only [nearPairs, Finset.mem_filter, Finset.mem_product, Finset.mem_range, l2] at h ⊢
      obtain ⟨⟨_, h3, h4, h5, h6, h7⟩, h1, h2⟩ := h
      rw [gl h1] at h6
      rw [gl h2] at h7
      exact ⟨⟨h1, h2⟩, h3, h4, h5, h6, h7⟩
  have e2 : (nearPairs f L R q t c).card = ((nearPairs f L R (p ++ q) t c).filter (fun x => p.length ≤ x.1 ∧ p.length ≤ x.2)).card := by
    refine Finset.card_bij' (fun x _ => (x.1 + p.length, x.2 + p.length)) (fun x _ => (x.1 - p.length, x.2 - p.length)) ?_ ?_ ?_ ?_
    · rintro ⟨i, j⟩ h
      simp only [nearPairs, Finset.mem_filter, Finset.mem_product, Finset.mem_range, l2] at h ⊢
      obtain ⟨⟨h1, h2⟩, h3, h4, h5, h6, h7⟩ := h
      rw [gr (by omega), gr (by omega), Nat.add_sub_cancel, Nat.add_sub_cancel]
      exact ⟨⟨⟨by omega, by omega⟩, by omega, by omega, by omega, h6, h7⟩, by omega, by omega⟩
    · rintro ⟨i, j⟩ h
      simp only [nearPairs, Finset.mem_filter, Finset.mem_product, Finset.mem_range, l2] at h ⊢
      obtain ⟨⟨⟨h8, h9⟩, h3, h4, h5, h6, h7⟩, h1, h2⟩ := h
      rw [gr h1] at h6
      rw [gr h2] at h7
      exact ⟨⟨by omega, by omega⟩, by omega, by omega, by omega, h6, h7⟩
    · rintro ⟨i, j⟩ _
      simp
    · rintro ⟨i, j⟩ h
      simp only [Finset.mem_filter] at h
      simp only [Prod.mk.injEq]
      omega
  have hrev : ∀ {k : Nat} {α : Type} {g : μ → α} {a : α}, p.reverse[k]?.map g = some a → k < p.length ∧ p[p.length - 1 - k]?.map g = some a := by
    intro k α g a h
    have hk : k < p.length := by
      by_contra hk
      rw [List.getElem?_eq_none (by simp; omega)] at h
      cases h
    rw [List.getElem?_reverse hk] at h
    exact ⟨hk, h⟩
  have hin : ∀ {k : Nat} {α : Type} {g : μ → α} {a : α}, q[k]?.map g = some a → k < q.length := by
    intro k α g a h
    by_contra hk
    rw [List.getElem?_eq_none (by omega)] at h
    cases h
  have e3 : across f L R p q t c =
      ((nearPairs f L R (p ++ q) t c).filter (fun x => x.1 < p.length ∧ p.length ≤ x.2)).card +
      ((nearPairs f L R (p ++ q) t c).filter (fun x => p.length ≤ x.1 ∧ x.2 < p.length)).card := by
    unfold across
    congr 1
    · refine Finset.card_bij' (fun x _ => (p.length - 1 - x.1, p.length + x.2)) (fun x _ => (p.length - 1 - x.1, x.2 - p.length)) ?_ ?_ ?_ ?_
      · rintro ⟨k, j⟩ h
        simp only [nearPairs, Finset.mem_filter, Finset.mem_product, Finset.mem_range, l2] at h ⊢
        obtain ⟨⟨h1, h2⟩, h3, h4, h5⟩ := h
        obtain ⟨h6, h7⟩ := hrev h4
        have h8 := hin h5
        refine ⟨⟨⟨by omega, by omega⟩, by omega, by omega, by omega, ?_, ?_⟩, by omega, by omega⟩
        · rw [gl (by omega)]; exact h7
        · rw [gr (by omega), Nat.add_sub_cancel_left]; exact h5
      · rintro ⟨i, j⟩ h
        simp only [nearPairs, Finset.mem_filter, Finset.mem_product, Finset.mem_range, l2] at h ⊢
        obtain ⟨⟨⟨h8, h9⟩, h3, h4, h5, h6, h7⟩, h1, h2⟩ := h
        rw [gl h1] at h6
        rw [gr h2] at h7
        refine ⟨⟨by omega, by omega⟩, by omega, ?_, h7⟩
        rw [List.getElem?_reverse (by omega), show p.length - 1 - (p.length - 1 - i) = i by omega]
        exact h6
      · rintro ⟨k, j⟩ h
        simp only [Finset.mem_filter] at h
        obtain ⟨h6, _⟩ := hrev h.2.2.1
        simp only [Prod.mk.injEq]
        omega
      · rintro ⟨i, j⟩ h
        simp only [Finset.mem_filter] at h
        simp only [Prod.mk.injEq]
        omega
    · refine Finset.card_bij' (fun x _ => (p.length + x.2, p.length - 1 - x.1)) (fun x _ => (p.length - 1 - x.2, x.1 - p.length)) ?_ ?_ ?_ ?_
      · rintro ⟨k, j⟩ h
        simp only [nearPairs, Finset.mem_filter, Finset.mem_product, Finset.mem_range, l2] at h ⊢
        obtain ⟨⟨h1, h2⟩, h3, h4, h5⟩ := h
        obtain ⟨h6, h7⟩ := hrev h4
        have h8 := hin h5
        refine ⟨⟨⟨by omega, by omega⟩, by omega, by omega, by omega, ?_, ?_⟩, by omega, by omega⟩
        · rw [gr (by omega), Nat.add_sub_cancel_left]; exact h5
        · rw [gl (by omega)]; exact h7
      · rintro ⟨i, j⟩ h
        simp only [nearPairs, Finset.mem_filter, Finset.mem_product, Finset.mem_range, l2] at h ⊢
        obtain ⟨⟨⟨h8, h9⟩, h3, h4, h5, h6, h7⟩, h1, h2⟩ := h
        rw [gr h1] at h6
        rw [gl h2] at h7
        refine ⟨⟨by omega, by omega⟩, by omega, ?_, h6⟩
        rw [List.getElem?_reverse (by omega), show p.length - 1 - (p.length - 1 - j) = j by omega]
        exact h7
      · rintro ⟨k, j⟩ h
        simp only [Finset.mem_filter] at h
        obtain ⟨h6, _⟩ := hrev h.2.2.1
        simp only [Prod.mk.injEq]
        omega
      · rintro ⟨i, j⟩ h
        simp only [Finset.mem_filter] at h
        simp only [Prod.mk.injEq]
        omega
  rw [e1, e2, e3]
  have s1 := Finset.card_filter_add_card_filter_not (s := nearPairs f L R (p ++ q) t c) (fun x => x.1 < p.length)
  have s2 := Finset.card_filter_add_card_filter_not (s := (nearPairs f L R (p ++ q) t c).filter (fun x => x.1 < p.length)) (fun x => x.2 < p.length)
  have s3 := Finset.card_filter_add_card_filter_not (s := (nearPairs f L R (p ++ q) t c).filter (fun x => ¬ x.1 < p.length)) (fun x => x.2 < p.length)
  simp only [Finset.filter_filter, not_lt] at s1 s2 s3
  omega

/-! ## C244 -/

theorem pairCount_join (f : Formatter ℓ μ κ) (L R : Nat) (pre post : List ℓ) {s : ℓ} (hm : f.matchLine s = none) (hs : f.isSep s = true) (t c : κ) :
    pairCount f L R (pre ++ post) t c + lastWord f L R (soFar f [] pre ++ toEnd f post) t c =
      pairCount f L R (pre ++ s :: post) t c + across f L R (soFar f [] pre) (toEnd f post) t c +
        lastWord f L R (soFar f [] pre) t c + lastWord f L R (toEnd f post) t c := by
  obtain ⟨A, B, h0, h⟩ := segs_joined f pre post [] 0
  have e : segTexts f (pre ++ s :: post) = A ++ soFar f [] pre :: toEnd f post :: B := by
    unfold segTexts
    rw [segments_eq]
    exact h s hm hs
  have e0 : segTexts f (pre ++ post) = A ++ (soFar f [] pre ++ toEnd f post) :: B := by
    unfold segTexts
    rw [segments_eq]
    exact h0
  have k0 := seg_near f L R (soFar f [] pre ++ toEnd f post) t c
  have k1 := seg_near f L R (soFar f [] pre) t c
  have k2 := seg_near f L R (toEnd f post) t c
  have k3 := near_joined f L R (soFar f [] pre) (toEnd f post) t c
  have hp : ∀ file, pairCount f L R file t c = ((segTexts f file).map (fun xs => (segPairs f L R xs t c).card)).sum := fun _ => rfl
  rw [hp, hp, e, e0]
  simp only [List.map_append, List.sum_append, List.map_cons, List.sum_cons]
  omega

/-- **C244**, exactly: if the line between two sentences is left out, the count of every wanted pair grows by the pairs in reach over the
border; what the last words of short sentences do not count is taken into account on both sides. -/
theorem C244_exact {f : Formatter ℓ μ κ} {L R : Nat} {rowv colv : Vocab κ} (hrw : Constructed rowv) (hc : Constructed colv)
    {fs gs : List (List ℓ)} {pre post : List ℓ} {s : ℓ} (hm : f.matchLine s = none) (hs : f.isSep s = true)
    {res res' : Option (Mtx κ Int)} (h : Returns f L R rowv colv (fs ++ (pre ++ s :: post) :: gs) res)
    (h' : Returns f L R rowv colv (fs ++ (pre ++ post) :: gs) res') {t c : κ} (hw : Wanted rowv colv t c) :
    countIn res' t c = countIn res t c + across f L R (soFar f [] pre) (toEnd f post) t c +
      lastWord f L R (soFar f [] pre) t c + lastWord f L R (toEnd f post) t c - lastWord f L R (soFar f [] pre ++ toEnd f post) t c := by
  rw [(h.isResult hrw hc).countIn, (h'.isResult hrw hc).countIn]
  unfold totalCount
  rw [if_pos hw, if_pos hw]
  have k := pairCount_join f L R pre post hm hs t c
  simp only [List.map_append, List.sum_append, List.map_cons, List.sum_cons]
  push_cast
  omega

/-- **C244**, long sentences: if both sentences have more than `R` words, the count grows exactly by the pairs in reach over the border. -/
theorem C244_long {f : Formatter ℓ μ κ} {L R : Nat} {rowv colv : Vocab κ} (hrw : Constructed rowv) (hc : Constructed colv)
    {fs gs : List (List ℓ)} {pre post : List ℓ} {s : ℓ} (hm : f.matchLine s = none) (hs : f.isSep s = true)
    (h1 : R < (soFar f [] pre).length) (h2 : R < (toEnd f post).length)
    {res res' : Option (Mtx κ Int)} (h : Returns f L R rowv colv (fs ++ (pre ++ s :: post) :: gs) res)
    (h' : Returns f L R rowv colv (fs ++ (pre ++ post) :: gs) res') {t c : κ} (hw : Wanted rowv colv t c) :
    countIn res' t c = countIn res t c + across f L R (soFar f [] pre) (toEnd f post) t c := by
  have z : ∀ {xs : List μ}, R < xs.length → lastWord f L R xs t c = 0 := fun hx => if_neg (fun hh => by omega)
  rw [C244_exact hrw hc hm hs h h' hw, z h1, z h2, z (by rw [List.length_append]; omega)]
  simp

/-- Joining never uncovers a lost pair. -/
theorem last_joined (f : Formatter ℓ μ κ) (L R : Nat) (p q : List μ) (t c : κ) :
    lastWord f L R (p ++ q) t c ≤ across f L R p q t c + lastWord f L R p t c + lastWord f L R q t c := by
  have k0 := seg_near f L R (p ++ q) t c
  have k1 := seg_near f L R p t c
  have k2 := seg_near f L R q t c
  have k3 := near_joined f L R p q t c
  have l2 : (p ++ q).length = p.length + q.length := by simp
  have k : (segPairs f L R p t c).card + (segPairs f L R q t c).card ≤ (segPairs f L R (p ++ q) t c).card := by
    have gl : ∀ {i : Nat}, i < p.length → (p ++ q)[i]? = p[i]? := fun h => List.getElem?_append_left h
    have gr : ∀ {i : Nat}, p.length ≤ i → (p ++ q)[i]? = q[i - p.length]? := fun h => List.getElem?_append_right h
    have e1 : (segPairs f L R p t c).card ≤ ((segPairs f L R (p ++ q) t c).filter (fun x => x.1 < p.length)).card := by
      refine Finset.card_le_card_of_injOn (fun x => x) ?_ (fun x _ y _ h => h)
      rintro ⟨i, j⟩ h
      simp only [segPairs, Finset.coe_filter, Set.mem_ofPred_eq, Finset.mem_filter, Finset.mem_product, Finset.mem_range, l2] at h ⊢
      obtain ⟨⟨h1, h2⟩, h0, h3, h4, h5, h6, h7⟩ := h
      exact ⟨⟨⟨by omega, by omega⟩, fun hl => by have := h0 (by omega); omega, h3, h4, h5, by rw [gl h1]; exact h6, by rw [gl h2]; exact h7⟩, h1⟩
    have e2 : (segPairs f L R q t c).card ≤ ((segPairs f L R (p ++ q) t c).filter (fun x => ¬ x.1 < p.length)).card := by
      refine Finset.card_le_card_of_injOn (fun x => (x.1 + p.length, x.2 + p.length)) ?_ ?_
      · rintro ⟨i, j⟩ h
        simp only [segPairs, Finset.coe_filter, Set.mem_ofPred_eq, Finset.mem_filter, Finset.mem_product, Finset.mem_range, l2] at h ⊢
        obtain ⟨⟨h1, h2⟩, h0, h3, h4, h5, h6, h7⟩ := h
        rw [gr (by omega), gr (by omega), Nat.add_sub_cancel, Nat.add_sub_cancel]
        exact ⟨⟨⟨by omega, by omega⟩, fun hl => by have := h0 (by omega); omega, by omega, by omega, by omega, h6, h7⟩, by omega⟩
      · rintro ⟨i, j⟩ _ ⟨i', j'⟩ _ h
        simp only [Prod.mk.injEq] at h ⊢
        omega
    have s1 := Finset.card_filter_add_card_filter_not (s := segPairs f L R (p ++ q) t c) (fun x => x.1 < p.length)
    omega
  omega

/-- **C244**, never lower: leaving out the line between two sentences never lowers a count. -/
theorem C244_never_lower {f : Formatter ℓ μ κ} {L R : Nat} {rowv colv : Vocab κ} (hrw : Constructed rowv) (hc : Constructed colv)
    {fs gs : List (List ℓ)} {pre post : List ℓ} {s : ℓ} (hm : f.matchLine s = none) (hs : f.isSep s = true)
    {res res' : Option (Mtx κ Int)} (h : Returns f L R rowv colv (fs ++ (pre ++ s :: post) :: gs) res)
    (h' : Returns f L R rowv colv (fs ++ (pre ++ post) :: gs) res') (t c : κ) : countIn res t c ≤ countIn res' t c := by
  by_cases hw : Wanted rowv colv t c
  · rw [C244_exact hrw hc hm hs h h' hw]
    have := last_joined f L R (soFar f [] pre) (toEnd f post) t c
    omega
  · rw [(h.isResult hrw hc).countIn, (h'.isResult hrw hc).countIn]
    unfold totalCount
    rw [if_neg hw, if_neg hw]

/-- Two sentences 1 3 and 1 2 with spans (1, 2): over the border 3 sees 1 and 2, 1 sees 1, and 1 sees 3. -/
example : soFar fmt [] [5, 10, 1, 3] = [1, 3] ∧ toEnd fmt [1, 2, 10, 4] = [1, 2] ∧ fmt.matchLine 10 = none ∧ fmt.isSep 10 = true ∧
    across fmt 1 2 [1, 3] [1, 2] 3 1 = 1 ∧ across fmt 1 2 [1, 3] [1, 2] 3 2 = 1 ∧ across fmt 1 2 [1, 3] [1, 2] 1 1 = 1 ∧
    across fmt 1 2 [1, 3] [1, 2] 1 3 = 1 ∧ across fmt 1 2 [1, 3] [1, 2] 1 2 = 0 ∧ lastWord fmt 1 2 [1, 3] 3 1 = 1 := by
  decide +kernel

/-- Two runs that meet the hypotheses: the sentences 1 1 and 2, and joined, with spans (1, 0). -/
example : Returns fmt 1 0 rowv12 Vocab.empty ([] ++ ([1, 1] ++ 10 :: [2]) :: []) (some ⟨.sp ⟨.csr, 2, 1, [((0, 0), 1)]⟩, [1, 2], [1]⟩) ∧
    Returns fmt 1 0 rowv12 Vocab.empty ([] ++ ([1, 1] ++ [2]) :: []) (some ⟨.sp ⟨.csr, 2, 1, [((0, 0), 1), ((1, 0), 1)]⟩, [1, 2], [1]⟩) := by
  refine ⟨⟨1, one, _, le_refl _, by intro i; simp [one], rfl, ⟨rfl, ?_⟩, rfl⟩, ⟨1, one, _, le_refl _, by intro i; simp [one], rfl, ⟨rfl, ?_⟩, rfl⟩⟩
  · intro w hw
    exact Or.inl ⟨_, List.mem_singleton.1 hw⟩
  · intro w hw
    exact Or.inl ⟨_, List.mem_singleton.1 hw⟩

end Verif.Cooc
