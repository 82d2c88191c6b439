import Verif.Cbc.Clean
import Mathlib.Data.List.Nodup
import Mathlib.Data.List.TakeWhile
import Mathlib.Data.List.Perm.Subperm
import Mathlib.Data.Rat.Defs
import Mathlib.Algebra.Order.Field.Rat
import Mathlib.Tactic.Positivity
import Mathlib.Tactic.NormNum
import Mathlib.Tactic.Tauto

/-!
# C44: cleaning clusters
-/

set_option linter.unusedSectionVars false

namespace Verif.Cbc

open Verif.Py

variable {K E : Type} [Field K] [LinearOrder K] [LinearOrder E]

/-! ## Specification -/

/-- Two lists name the same set. -/
def SameSet (a b : List E) : Prop := ∀ e, e ∈ a ↔ e ∈ b

/-- The multi-element clusters of the input: those with a positive score (singletons get -1). -/
def Positive (L : List (K × List E)) (x : K × List E) : Prop := x ∈ L ∧ 0 < x.1

/-! ## The inverted index -/

theorem mem_addId (cid : Nat) (d : Dict E (List Nat)) (e e' : E) (c : Nat) :
    c ∈ ((addId cid d e).get? e').getD [] ↔ c ∈ (d.get? e').getD [] ∨ (e = e' ∧ c = cid) := by
  unfold addId
  simp only
  rw [Dict.get?_set]
  by_cases h : e = e'
  · subst h
    rw [if_pos rfl]
    simp only [Option.getD_some, true_and]
    split
    · next hc =>
      constructor
      · exact fun h => .inl h
      · rintro (h | rfl)
        · exact h
        · exact hc
    · simp
  · rw [if_neg h]
    simp [h]

theorem keys_addId (cid : Nat) (d : Dict E (List Nat)) (e e' : E) :
    e' ∈ Dict.keys (addId cid d e) ↔ e' ∈ Dict.keys d ∨ e = e' := by
  unfold addId
  simp only
  rw [← Dict.get?_isSome_iff, Dict.get?_set, ← Dict.get?_isSome_iff]
  by_cases h : e = e'
  · simp [h]
  · simp [h]

theorem mem_foldl_addId (cid : Nat) (l : List E) (d : Dict E (List Nat)) (e' : E) (c : Nat) :
    c ∈ ((l.foldl (addId cid) d).get? e').getD [] ↔ c ∈ (d.get? e').getD [] ∨ (e' ∈ l ∧ c = cid) := by
  induction l generalizing d with
  | nil => simp
  | cons a l ih =>
    rw [List.foldl_cons, ih, mem_addId, List.mem_cons]
    constructor
    · rintro ((h | ⟨rfl, h⟩) | h)
      · exact .inl h
      · exact .inr ⟨.inl rfl, h⟩
      · exact .inr ⟨.inr h.1, h.2⟩
    · rintro (h | ⟨rfl | h, h'⟩)
      · exact .inl (.inl h)
      · exact .inl (.inr ⟨rfl, h'⟩)
      · exact .inr ⟨h, h'⟩

theorem keys_foldl_addId (cid : Nat) (l : List E) (d : Dict E (List Nat)) (e' : E) :
    e' ∈ Dict.keys (l.foldl (addId cid) d) ↔ e' ∈ Dict.keys d ∨ e' ∈ l := by
  induction l generalizing d with
  | nil => simp
  | cons a l ih =>
    rw [List.foldl_cons, ih, keys_addId, List.mem_cons]
    constructor
    · rintro ((h | rfl) | h)
      · exact .inl h
      · exact .inr (.inl rfl)
      · exact .inr (.inr h)
    · rintro (h | rfl | h)
      · exact .inl (.inl h)
      · exact .inl (.inr rfl)
      · exact .inr h

theorem mem_foldl_index (ps : List ((K × List E) × Nat)) (d : Dict E (List Nat)) (e : E) (c : Nat) :
    c ∈ ((ps.foldl (fun d p => p.1.2.foldl (addId p.2) d) d).get? e).getD [] ↔
      c ∈ (d.get? e).getD [] ∨ ∃ p ∈ ps, e ∈ p.1.2 ∧ c = p.2 := by
  induction ps generalizing d with
  | nil => simp
  | cons p ps ih =>
    rw [List.foldl_cons, ih, mem_foldl_addId]
    simp only [List.mem_cons, exists_eq_or_imp]
    rw [or_assoc]

theorem keys_foldl_index (ps : List ((K × List E) × Nat)) (d : Dict E (List Nat)) (e : E) :
    e ∈ Dict.keys (ps.foldl (fun d p => p.1.2.foldl (addId p.2) d) d) ↔
      e ∈ Dict.keys d ∨ ∃ p ∈ ps, e ∈ p.1.2 := by
  induction ps generalizing d with
  | nil => simp
  | cons p ps ih =>
    rw [List.foldl_cons, ih, keys_foldl_addId]
    simp only [List.mem_cons, exists_eq_or_imp]
    rw [or_assoc]

theorem mem_invertedIndex (L : List (K × List E)) (e : E) (c : Nat) :
    c ∈ ((invertedIndex L).get? e).getD [] ↔ ∃ x, L[c]? = some x ∧ e ∈ x.2 := by
  unfold invertedIndex
  rw [mem_foldl_index]
  simp only [Dict.get?, Option.getD_none, List.not_mem_nil, false_or]
  constructor
  · rintro ⟨⟨x, i⟩, hp, he, rfl⟩
    exact ⟨x, List.mem_zipIdx_iff_getElem?.1 hp, he⟩
  · rintro ⟨x, hx, he⟩
    exact ⟨(x, c), List.mem_zipIdx_iff_getElem?.2 hx, he, rfl⟩

theorem contains_invertedIndex (L : List (K × List E)) (e : E) :
    (invertedIndex L).contains e = true ↔ ∃ x ∈ L, e ∈ x.2 := by
  rw [Dict.contains_iff]
  unfold invertedIndex
  rw [keys_foldl_index]
  simp only [Dict.keys, List.map_nil, List.not_mem_nil, false_or]
  constructor
  · rintro ⟨⟨x, i⟩, hp, he⟩
    exact ⟨x, List.mem_of_getElem? (List.mem_zipIdx_iff_getElem?.1 hp), he⟩
  · rintro ⟨x, hx, he⟩
    obtain ⟨i, hi⟩ := List.getElem?_of_mem hx
    exact ⟨(x, i), List.mem_zipIdx_iff_getElem?.2 hi, he⟩

theorem foldl_common_some (invidx : Dict E (List Nat)) (l : List E) (s : List Nat) :
    ∃ t, l.foldl (commonStep invidx) (some s) = some t ∧
      ∀ c, c ∈ t ↔ c ∈ s ∧ ∀ e ∈ l, c ∈ (invidx.get? e).getD [] := by
  induction l generalizing s with
  | nil => exact ⟨s, rfl, by simp⟩
  | cons a l ih =>
    obtain ⟨t, h1, h2⟩ := ih (s.filter (fun c => decide (c ∈ (invidx.get? a).getD [])))
    refine ⟨t, h1, fun c => ?_⟩
    rw [h2]
    simp only [List.mem_filter, decide_eq_true_eq, List.mem_cons, forall_eq_or_imp, and_assoc]

/-- The super-clusters found are the other clusters that contain the given (non-empty) cluster. -/
theorem mem_superOf (L : List (K × List E)) (cid : Nat) (clust : List E) (c : Nat) :
    c ∈ superOf (invertedIndex L) cid clust ↔
      clust ≠ [] ∧ c ≠ cid ∧ ∃ x, L[c]? = some x ∧ ∀ e ∈ clust, e ∈ x.2 := by
  unfold superOf
  cases clust with
  | nil => simp
  | cons a l =>
    obtain ⟨t, h1, h2⟩ := foldl_common_some (invertedIndex L) l (((invertedIndex L).get? a).getD [])
    have h0 : (a :: l).foldl (commonStep (invertedIndex L)) none = some t := h1
    rw [h0]
    simp only [List.mem_filter, decide_eq_true_eq, h2, mem_invertedIndex, ne_eq, reduceCtorEq,
      not_false_eq_true, true_and]
    constructor
    · rintro ⟨⟨⟨x, hx, hax⟩, hall⟩, hne⟩
      refine ⟨hne, x, hx, fun e he => ?_⟩
      rcases List.mem_cons.1 he with rfl | he
      · exact hax
      · obtain ⟨y, hy, hey⟩ := hall e he
        rw [hx] at hy
        rw [Option.some.inj hy]; exact hey
    · rintro ⟨hne, x, hx, hall⟩
      exact ⟨⟨⟨x, hx, hall a (by simp)⟩, fun e he => ⟨x, hx, hall e (by simp [he])⟩⟩, hne⟩

/-- `remove_superset` keeps exactly the entries that contain no other non-empty entry. -/
theorem mem_removeSuperset (L : List (K × List E)) (x : K × List E) :
    x ∈ removeSuperset L (invertedIndex L) ↔
      ∃ i : Nat, L[i]? = some x ∧ ∀ (j : Nat) y, L[j]? = some y → j ≠ i → y.2 ≠ [] →
        ¬ ∀ e ∈ y.2, e ∈ x.2 := by
  unfold removeSuperset
  simp only [List.mem_map, List.mem_filter, decide_eq_true_eq, List.mem_flatMap, Prod.exists,
    exists_and_right, exists_eq_right]
  constructor
  · rintro ⟨i, hi, hno⟩
    have hi' : L[i]? = some x := List.mem_zipIdx_iff_getElem?.1 hi
    refine ⟨i, hi', fun j y hj hne hy hsub => hno ?_⟩
    exact ⟨y.1, y.2, j, List.mem_zipIdx_iff_getElem?.2 hj,
      (mem_superOf L j y.2 i).2 ⟨hy, Ne.symm hne, x, hi', hsub⟩⟩
  · rintro ⟨i, hi, hno⟩
    refine ⟨i, List.mem_zipIdx_iff_getElem?.2 hi, ?_⟩
    rintro ⟨a, b, j, hj, hs⟩
    obtain ⟨h1, h2, z, h3, h4⟩ := (mem_superOf L j b i).1 hs
    rw [hi] at h3
    obtain rfl := Option.some.inj h3
    exact hno j (a, b) (List.mem_zipIdx_iff_getElem?.1 hj) (Ne.symm h2) h1 h4

/-- The kept list is a sub-list of the list of different clusters. -/
theorem removeSuperset_sublist (L : List (K × List E)) (d : Dict E (List Nat)) :
    (removeSuperset L d).Sublist L := by
  unfold removeSuperset
  simp only
  have h := (List.filter_sublist (l := L.zipIdx)
    (p := fun p => decide (p.2 ∉ L.zipIdx.flatMap (fun p => superOf d p.2 p.1.2)))).map Prod.fst
  have e : L.zipIdx.map Prod.fst = L := by simp [List.zipIdx_map_fst]
  rwa [e] at h

/-! ## Removing duplicates -/

theorem differ_false {a b : List E} (h : differ a b = false) : a.Perm b := by
  have h' : sortedBy id a = sortedBy id b := by simpa [differ] using h
  exact (sortedBy_perm id a).symm.trans (h' ▸ sortedBy_perm id b)

theorem dedupLoop_mem (prev : K × List E) (l : List (K × List E)) {x : K × List E}
    (h : x ∈ dedupLoop prev l) : ∃ y ∈ l, x = (y.1, y.2.dedup) := by
  induction l generalizing prev with
  | nil => simp [dedupLoop] at h
  | cons p l ih =>
    obtain ⟨s, c⟩ := p
    simp only [dedupLoop] at h
    split at h
    · rcases List.mem_cons.1 h with rfl | h
      · exact ⟨(s, c), by simp, rfl⟩
      · obtain ⟨y, hy, e⟩ := ih _ h
        exact ⟨y, by simp [hy], e⟩
    · obtain ⟨y, hy, e⟩ := ih _ h
      exact ⟨y, by simp [hy], e⟩

theorem removeDuplicate_mem {l : List (K × List E)} {x : K × List E} (h : x ∈ removeDuplicate l) :
    ∃ y ∈ l, x = (y.1, y.2.dedup) := by
  cases l with
  | nil => simp [removeDuplicate] at h
  | cons p l =>
    obtain ⟨s, c⟩ := p
    simp only [removeDuplicate] at h
    rcases List.mem_cons.1 h with rfl | h
    · exact ⟨(s, c), by simp, rfl⟩
    · obtain ⟨y, hy, e⟩ := dedupLoop_mem _ _ h
      exact ⟨y, by simp [hy], e⟩

/-- Nothing is lost: every cluster of the rest equals (as a set) the previous one or a kept one. -/
theorem dedupLoop_covers (prev : K × List E) (l : List (K × List E)) :
    ∀ y ∈ l, SameSet y.2 prev.2 ∨ ∃ x ∈ dedupLoop prev l, SameSet y.2 x.2 := by
  induction l generalizing prev with
  | nil => simp
  | cons p l ih =>
    obtain ⟨s, c⟩ := p
    intro y hy
    simp only [dedupLoop]
    split
    · rcases List.mem_cons.1 hy with rfl | hy
      · exact .inr ⟨_, List.mem_cons_self, fun e => by simp⟩
      · rcases ih (s, c) y hy with h | ⟨x, hx, h⟩
        · exact .inr ⟨_, List.mem_cons_self, fun e => by rw [h e]; simp⟩
        · exact .inr ⟨x, List.mem_cons_of_mem _ hx, h⟩
    · next hcond =>
      rcases List.mem_cons.1 hy with rfl | hy
      · left
        have : differ c prev.2 = false := by
          cases hd : differ c prev.2 with
          | false => rfl
          | true => exact absurd (.inr hd) hcond
        exact fun e => (differ_false this).mem_iff
      · exact ih prev y hy

theorem removeDuplicate_covers (l : List (K × List E)) :
    ∀ y ∈ l, ∃ x ∈ removeDuplicate l, SameSet y.2 x.2 := by
  cases l with
  | nil => simp
  | cons p l =>
    obtain ⟨s, c⟩ := p
    intro y hy
    simp only [removeDuplicate]
    rcases List.mem_cons.1 hy with rfl | hy
    · exact ⟨_, List.mem_cons_self, fun e => by simp⟩
    · rcases dedupLoop_covers (s, c) l y hy with h | ⟨x, hx, h⟩
      · exact ⟨_, List.mem_cons_self, fun e => by rw [h e]; simp⟩
      · exact ⟨x, List.mem_cons_of_mem _ hx, h⟩

/-! ## Positive and other clusters -/

/-- The two parts of the sorted list. -/
theorem mem_takeWhile_pos (L : List (K × List E)) (x : K × List E) :
    x ∈ (sortedByDesc Prod.fst L).takeWhile (fun p => decide (0 < p.1)) ↔ Positive L x := by
  have hs := sortedByDesc_pairwise (Prod.fst : K × List E → K) L
  unfold Positive
  rw [← (sortedByDesc_perm (Prod.fst : K × List E → K) L).mem_iff]
  generalize sortedByDesc Prod.fst L = l at hs ⊢
  induction l with
  | nil => simp
  | cons a l ih =>
    rw [List.pairwise_cons] at hs
    rw [List.takeWhile_cons]
    by_cases ha : 0 < a.1
    · rw [if_pos (by simpa using ha)]
      have ih' : x ∈ l.takeWhile (fun p => decide (0 < p.1)) ↔ x ∈ l ∧ 0 < x.1 := ih hs.2
      rw [List.mem_cons, List.mem_cons, ih']
      constructor
      · rintro (rfl | h)
        · exact ⟨.inl rfl, ha⟩
        · exact ⟨.inr h.1, h.2⟩
      · rintro ⟨rfl | h, h'⟩
        · exact .inl rfl
        · exact .inr ⟨h, h'⟩
    · rw [if_neg (by simpa using ha)]
      simp only [List.not_mem_nil, false_iff, not_and]
      intro hx h
      rcases List.mem_cons.1 hx with rfl | hx
      · exact ha h
      · exact ha (lt_of_lt_of_le h (hs.1 x hx))

theorem mem_dropWhile_pos (L : List (K × List E)) (x : K × List E) :
    x ∈ (sortedByDesc Prod.fst L).dropWhile (fun p => decide (0 < p.1)) ↔ x ∈ L ∧ ¬ 0 < x.1 := by
  have hs := sortedByDesc_pairwise (Prod.fst : K × List E → K) L
  rw [← (sortedByDesc_perm (Prod.fst : K × List E → K) L).mem_iff]
  generalize sortedByDesc Prod.fst L = l at hs ⊢
  induction l with
  | nil => simp
  | cons a l ih =>
    rw [List.pairwise_cons] at hs
    rw [List.dropWhile_cons]
    by_cases ha : 0 < a.1
    · have ih' : x ∈ l.dropWhile (fun p => decide (0 < p.1)) ↔ x ∈ l ∧ ¬ 0 < x.1 := ih hs.2
      rw [if_pos (by simpa using ha), ih', List.mem_cons]
      constructor
      · rintro ⟨h, h'⟩
        exact ⟨.inr h, h'⟩
      · rintro ⟨rfl | h, h'⟩
        · exact absurd ha h'
        · exact ⟨h, h'⟩
    · rw [if_neg (by simpa using ha)]
      constructor
      · intro h
        refine ⟨h, fun hx => ha ?_⟩
        rcases List.mem_cons.1 h with rfl | h
        · exact hx
        · exact lt_of_lt_of_le hx (hs.1 x h)
      · exact fun h => h.1

/-- The list from which super-clusters are removed. -/
def distinctClusters (L : List (K × List E)) : List (K × List E) :=
  removeDuplicate ((sortedByDesc Prod.fst L).takeWhile (fun p => decide (0 < p.1)))

theorem cleanClusters_fst (L : List (K × List E)) :
    (cleanClusters L).1 = removeSuperset (distinctClusters L) (invertedIndex (distinctClusters L)) := rfl

theorem mem_distinct_contains (L : List (K × List E)) (e : E) :
    (∃ x ∈ distinctClusters L, e ∈ x.2) ↔ ∃ x, Positive L x ∧ e ∈ x.2 := by
  constructor
  · rintro ⟨x, hx, he⟩
    obtain ⟨y, hy, rfl⟩ := removeDuplicate_mem hx
    exact ⟨y, (mem_takeWhile_pos L y).1 hy, by simpa using he⟩
  · rintro ⟨x, hx, he⟩
    obtain ⟨y, hy, h⟩ := removeDuplicate_covers _ x ((mem_takeWhile_pos L x).2 hx)
    exact ⟨y, hy, (h e).1 he⟩

/-! ## C44 -/

/-- C44: no kept cluster contains another kept cluster (clusters with a positive score being non-empty, as
CBC's are). -/
theorem C44_antichain (L : List (K × List E)) (hne : ∀ x, Positive L x → x.2 ≠ []) :
    (cleanClusters L).1.Pairwise (fun x y => ¬ (∀ e ∈ x.2, e ∈ y.2) ∧ ¬ (∀ e ∈ y.2, e ∈ x.2)) := by
  rw [cleanClusters_fst]
  have hne' : ∀ x ∈ distinctClusters L, x.2 ≠ [] := by
    intro x hx
    obtain ⟨y, hy, rfl⟩ := removeDuplicate_mem hx
    have := hne y ((mem_takeWhile_pos L y).1 hy)
    simpa using this
  generalize distinctClusters L = D at hne' ⊢
  unfold removeSuperset
  simp only
  rw [List.pairwise_map]
  have key : ∀ p q : (K × List E) × Nat, p ∈ D.zipIdx → q ∈ D.zipIdx → p.2 ≠ q.2 →
      p.2 ∉ D.zipIdx.flatMap (fun p => superOf (invertedIndex D) p.2 p.1.2) →
      ¬ ∀ e ∈ q.1.2, e ∈ p.1.2 := by
    intro p q hp hq hpq hno hsub
    refine hno (List.mem_flatMap.2 ⟨q, hq, (mem_superOf D q.2 q.1.2 p.2).2
      ⟨hne' q.1 (List.mem_of_getElem? (List.mem_zipIdx_iff_getElem?.1 hq)), hpq, p.1,
        List.mem_zipIdx_iff_getElem?.1 hp, hsub⟩⟩)
  have hnd : D.zipIdx.Pairwise (fun p q => p.2 ≠ q.2) := by
    have : (D.zipIdx.map Prod.snd).Nodup := by
      rw [List.zipIdx_map_snd]
      exact List.nodup_range'
    rwa [List.Nodup, List.pairwise_map] at this
  refine List.Pairwise.imp_of_mem ?_ (hnd.filter _)
  intro p q hp hq hpq
  obtain ⟨hp1, hp2⟩ := List.mem_filter.1 hp
  obtain ⟨hq1, hq2⟩ := List.mem_filter.1 hq
  exact ⟨key q p hq1 hp1 (Ne.symm hpq) (by simpa using hq2), key p q hp1 hq1 hpq (by simpa using hp2)⟩

/-- C44: every kept cluster is one of the given clusters with a positive score, as a set. -/
theorem C44_from_input (L : List (K × List E)) :
    ∀ x ∈ (cleanClusters L).1, ∃ y, Positive L y ∧ x.1 = y.1 ∧ SameSet x.2 y.2 := by
  intro x hx
  rw [cleanClusters_fst] at hx
  obtain ⟨y, hy, rfl⟩ := removeDuplicate_mem ((removeSuperset_sublist _ _).subset hx)
  exact ⟨y, (mem_takeWhile_pos L y).1 hy, rfl, fun e => by simp⟩

/-- C44: the kept singletons are exactly the first elements of the clusters without a positive score that
occur in no cluster with a positive score; each is listed once. -/
theorem C44_singletons (L : List (K × List E)) :
    (cleanClusters L).2.Nodup ∧
    ∀ e, e ∈ (cleanClusters L).2 ↔
      (∃ x ∈ L, ¬ 0 < x.1 ∧ x.2.head? = some e) ∧ ∀ y, Positive L y → e ∉ y.2 := by
  have hform : (cleanClusters L).2 = removeSingleton
      ((((sortedByDesc Prod.fst L).dropWhile (fun p => decide (0 < p.1))).filterMap
        (fun p => p.2.head?)).dedup) (invertedIndex (distinctClusters L)) := rfl
  rw [hform]
  unfold removeSingleton
  refine ⟨(List.nodup_dedup _).filter _, fun e => ?_⟩
  simp only [List.mem_filter, List.mem_dedup, List.mem_filterMap, Bool.not_eq_true', mem_dropWhile_pos]
  constructor
  · rintro ⟨⟨x, ⟨hx, hs⟩, hh⟩, hc⟩
    refine ⟨⟨x, hx, hs, hh⟩, fun y hy he => ?_⟩
    have := (contains_invertedIndex (distinctClusters L) e).2 ((mem_distinct_contains L e).2 ⟨y, hy, he⟩)
    rw [hc] at this
    exact absurd this (by simp)
  · rintro ⟨⟨x, hx, hs, hh⟩, hno⟩
    refine ⟨⟨x, ⟨hx, hs⟩, hh⟩, ?_⟩
    cases hc : (invertedIndex (distinctClusters L)).contains e with
    | false => rfl
    | true =>
      obtain ⟨y, hy, he⟩ := (mem_distinct_contains L e).1 ((contains_invertedIndex _ e).1 hc)
      exact absurd he (hno y hy)

/-- Among the clusters contained in `x`, one contains no other. -/
theorem exists_kept (D : List (K × List E)) (hnd : ∀ x ∈ D, x.2.Nodup) (hne : ∀ x ∈ D, x.2 ≠ [])
    (hdist : ∀ (i j : Nat) x y, D[i]? = some x → D[j]? = some y → SameSet x.2 y.2 → i = j) :
    ∀ (n : Nat) (i : Nat) x, x.2.length ≤ n → D[i]? = some x →
      ∃ z ∈ removeSuperset D (invertedIndex D), ∀ e ∈ z.2, e ∈ x.2 := by
  intro n
  induction n with
  | zero =>
    intro i x hl hx
    exact absurd (List.length_eq_zero_iff.1 (Nat.le_zero.1 hl)) (hne x (List.mem_of_getElem? hx))
  | succ n ih =>
    intro i x hl hx
    by_cases hk : ∀ (j : Nat) y, D[j]? = some y → j ≠ i → y.2 ≠ [] → ¬ ∀ e ∈ y.2, e ∈ x.2
    · exact ⟨x, (mem_removeSuperset D x).2 ⟨i, hx, hk⟩, fun e he => he⟩
    · push Not at hk
      obtain ⟨j, y, hy, hji, _, hsub⟩ := hk
      have hlt : y.2.length < x.2.length := by
        have hyn := hnd y (List.mem_of_getElem? hy)
        have hsp := List.subperm_of_subset hyn hsub
        rcases Nat.lt_or_ge y.2.length x.2.length with h | h
        · exact h
        · have hp := hsp.perm_of_length_le h
          exact absurd (hdist j i y x hy hx (fun e => hp.mem_iff)) hji
      obtain ⟨z, hz, hzs⟩ := ih j y (by omega) hy
      exact ⟨z, hz, fun e he => hsub e (hzs e he)⟩

/-- C44, partial: every input cluster with a positive score contains a kept cluster, provided the removal of
duplicates has left no cluster twice.  Missing: that proviso (see `C44_false`). -/
theorem C44_partial (L : List (K × List E)) (hne : ∀ x, Positive L x → x.2 ≠ [])
    (hdist : ∀ (i j : Nat) x y, (distinctClusters L)[i]? = some x → (distinctClusters L)[j]? = some y →
      SameSet x.2 y.2 → i = j) :
    ∀ x, Positive L x → ∃ z ∈ (cleanClusters L).1, ∀ e ∈ z.2, e ∈ x.2 := by
  intro x hx
  obtain ⟨y, hy, hxy⟩ := removeDuplicate_covers _ x ((mem_takeWhile_pos L x).2 hx)
  change y ∈ distinctClusters L at hy
  have hne' : ∀ x ∈ distinctClusters L, x.2 ≠ [] := by
    intro x hx
    obtain ⟨y, hy, rfl⟩ := removeDuplicate_mem hx
    have := hne y ((mem_takeWhile_pos L y).1 hy)
    simpa using this
  have hnd : ∀ x ∈ distinctClusters L, x.2.Nodup := by
    intro x hx
    obtain ⟨y, hy, rfl⟩ := removeDuplicate_mem hx
    exact List.nodup_dedup _
  obtain ⟨i, hi⟩ := List.getElem?_of_mem hy
  obtain ⟨z, hz, hs⟩ := exists_kept (distinctClusters L) hnd hne' hdist _ i y le_rfl hi
  exact ⟨z, hz, fun e he => (hxy e).2 (hs e he)⟩

section Scores

variable [IsStrictOrderedRing K]

/-- On a list sorted by score in which equal scores mean equal clusters, the scores kept by the loop strictly
decrease. -/
theorem dedupLoop_decreasing (prev : K × List E) (l : List (K × List E))
    (hs : (prev :: l).Pairwise (fun x y => y.1 ≤ x.1))
    (hscore : ∀ x ∈ prev :: l, ∀ y ∈ prev :: l, x.1 = y.1 → x.2.Perm y.2) :
    (∀ x ∈ dedupLoop prev l, x.1 < prev.1) ∧ (dedupLoop prev l).Pairwise (fun x y => y.1 < x.1) := by
  induction l generalizing prev with
  | nil => simp [dedupLoop]
  | cons p l ih =>
    obtain ⟨s, c⟩ := p
    have hs' := hs
    rw [List.pairwise_cons] at hs
    simp only [dedupLoop]
    split
    · next hcond =>
      obtain ⟨h1, h2⟩ := ih (s, c) hs.2 (fun x hx y hy => hscore x (by simp at hx ⊢; tauto)
        y (by simp at hy ⊢; tauto))
      have hle : s ≤ prev.1 := hs.1 (s, c) (by simp)
      have hlt : s < prev.1 := by
        rcases lt_or_eq_of_le hle with h | h
        · exact h
        · exfalso
          have hp := hscore (s, c) (by simp) prev (by simp) h
          rcases hcond with hc | hc
          · rw [h, sub_self, abs_zero] at hc
            have : (0 : K) < 1 / 10 ^ 9 := by positivity
            exact absurd hc (not_lt.2 this.le)
          · have : sortedBy id c = sortedBy id prev.2 := by
              refine eq_of_perm_of_pairwise (r := fun a b => a ≤ b) ?_ ?_ ?_ ?_
              · intro a _ b _ h1 h2
                exact le_antisymm h1 h2
              · exact (sortedBy_perm id c).trans (hp.trans (sortedBy_perm id prev.2).symm)
              · exact sortedBy_pairwise id c
              · exact sortedBy_pairwise id prev.2
            simp [differ, this] at hc
      refine ⟨?_, ?_⟩
      · intro x hx
        rcases List.mem_cons.1 hx with rfl | hx
        · exact hlt
        · exact lt_trans (h1 x hx) hlt
      · rw [List.pairwise_cons]
        exact ⟨fun y hy => h1 y hy, h2⟩
    · refine ih prev ?_ (fun x hx y hy => hscore x (by simp at hx ⊢; tauto) y (by simp at hy ⊢; tauto))
      rw [List.pairwise_cons]
      exact ⟨fun y hy => hs.1 y (by simp [hy]), (List.pairwise_cons.1 hs.2).2⟩

/-- C44, partial, with a proviso on the input: when two clusters with a positive score have equal scores
exactly if they are the same cluster, every input cluster with a positive score contains a kept cluster.
Missing: inputs where different clusters share a score, or where one cluster occurs with two scores. -/
theorem C44_scores_partial (L : List (K × List E)) (hne : ∀ x, Positive L x → x.2 ≠ [])
    (hnd : ∀ x, Positive L x → x.2.Nodup)
    (hscore : ∀ x y, Positive L x → Positive L y → (x.1 = y.1 ↔ SameSet x.2 y.2)) :
    ∀ x, Positive L x → ∃ z ∈ (cleanClusters L).1, ∀ e ∈ z.2, e ∈ x.2 := by
  refine C44_partial L hne ?_
  have hdec : (distinctClusters L).Pairwise (fun x y => y.1 < x.1) := by
    unfold distinctClusters
    have hs : ((sortedByDesc Prod.fst L).takeWhile (fun p => decide (0 < p.1))).Pairwise
        (fun x y : K × List E => y.1 ≤ x.1) :=
      (sortedByDesc_pairwise (Prod.fst : K × List E → K) L).sublist (List.takeWhile_sublist _)
    have hm := fun x => (mem_takeWhile_pos L x).1
    generalize (sortedByDesc Prod.fst L).takeWhile (fun p => decide (0 < p.1)) = l at hs hm ⊢
    cases l with
    | nil => simp [removeDuplicate]
    | cons p l =>
      obtain ⟨s, c⟩ := p
      obtain ⟨h1, h2⟩ := dedupLoop_decreasing (s, c) l hs (fun x hx y hy hxy =>
        (List.perm_ext_iff_of_nodup (hnd x (hm x hx)) (hnd y (hm y hy))).2
          (fun e => (hscore x y (hm x hx) (hm y hy)).1 hxy e))
      simp only [removeDuplicate]
      rw [List.pairwise_cons]
      exact ⟨fun y hy => h1 y hy, h2⟩
  intro i j x y hx hy hxy
  have hpos : ∀ x ∈ distinctClusters L, ∃ y, Positive L y ∧ x.1 = y.1 ∧ SameSet x.2 y.2 := by
    intro x hx
    obtain ⟨y, hy, rfl⟩ := removeDuplicate_mem hx
    exact ⟨y, (mem_takeWhile_pos L y).1 hy, rfl, fun e => by simp⟩
  obtain ⟨x', hx1, hx2, hx3⟩ := hpos x (List.mem_of_getElem? hx)
  obtain ⟨y', hy1, hy2, hy3⟩ := hpos y (List.mem_of_getElem? hy)
  have heq : x.1 = y.1 := by
    rw [hx2, hy2]
    exact (hscore x' y' hx1 hy1).2 (fun e => by rw [← hx3 e, hxy e, hy3 e])
  rw [List.pairwise_iff_getElem] at hdec
  obtain ⟨hi, hxi⟩ := List.getElem?_eq_some_iff.1 hx
  obtain ⟨hj, hyj⟩ := List.getElem?_eq_some_iff.1 hy
  rcases Nat.lt_trichotomy i j with h | h | h
  · have := hdec i j hi hj h
    rw [hxi, hyj, heq] at this
    exact absurd this (lt_irrefl _)
  · exact h
  · have := hdec j i hj hi h
    rw [hxi, hyj, heq] at this
    exact absurd this (lt_irrefl _)

end Scores

/-- C44 is false: three clusters of equal score, the first and the last being the same cluster `{1, 2}`.  The
two copies are not neighbours, so both survive the removal of duplicates, and then each is removed as a
superset of the other: no kept cluster is contained in `{1, 2}`. -/
theorem C44_false :
    ∃ (L : List (ℚ × List Nat)) (x : ℚ × List Nat), Positive L x ∧
      (∀ y, Positive L y → y.2 ≠ [] ∧ y.2.Nodup) ∧
      (cleanClusters L).1 = [(1, [2, 3])] ∧ (cleanClusters L).2 = [] ∧
      ¬ ∃ z ∈ (cleanClusters L).1, ∀ e ∈ z.2, e ∈ x.2 := by
  have h1 : (cleanClusters ([(1, [1, 2]), (1, [2, 3]), (1, [1, 2])] : List (ℚ × List Nat))).1
      = [(1, [2, 3])] := by decide +kernel
  refine ⟨[(1, [1, 2]), (1, [2, 3]), (1, [1, 2])], (1, [1, 2]), ⟨by simp, by norm_num⟩, ?_, h1, by decide +kernel, ?_⟩
  · rintro y ⟨hy, _⟩
    simp only [List.mem_cons, List.not_mem_nil, or_false] at hy
    rcases hy with rfl | rfl | rfl <;> simp
  · rw [h1]
    simp

/-- An input on which all hypotheses hold: a duplicate, a superset, a singleton inside a cluster and a
singleton outside all. -/
example : cleanClusters ([(3, [1, 2]), (2, [1, 2, 4]), (3, [2, 1]), (1, [5, 6]), (-1, [6]), (-1, [7])] :
    List (ℚ × List Nat)) = ([(3, [1, 2]), (1, [5, 6])], [7]) := by decide +kernel

/-- C74 is false: cleaning can lose elements altogether.  Element 4 is only in the super-cluster that is
removed; as a singleton it is dropped because that super-cluster contained it. -/
theorem C74_false :
    ∃ (L : List (ℚ × List Nat)) (e : Nat), (∃ x ∈ L, e ∈ x.2) ∧
      e ∉ (cleanClusters L).2 ∧ ∀ z ∈ (cleanClusters L).1, e ∉ z.2 := by
  have h1 : cleanClusters ([(3, [1, 2]), (2, [1, 2, 4]), (-1, [4])] : List (ℚ × List Nat))
      = ([(3, [1, 2])], []) := by decide +kernel
  refine ⟨[(3, [1, 2]), (2, [1, 2, 4]), (-1, [4])], 4, ⟨(-1, [4]), by simp, by simp⟩, ?_, ?_⟩
  · rw [h1]; simp
  · rw [h1]; simp

/-- C74, partial: an element that occurs in no cluster of positive score, and is the first element of some
cluster, is kept as a singleton; nothing else is kept than what was given.  Missing: the elements of removed
super-clusters. -/
theorem C74_partial (L : List (K × List E)) :
    (∀ e, (∃ x ∈ L, x.2.head? = some e) → (∀ y, Positive L y → e ∉ y.2) → e ∈ (cleanClusters L).2) ∧
    (∀ e ∈ (cleanClusters L).2, ∃ x ∈ L, e ∈ x.2) ∧
    (∀ z ∈ (cleanClusters L).1, ∀ e ∈ z.2, ∃ x ∈ L, e ∈ x.2) := by
  refine ⟨?_, ?_, ?_⟩
  · rintro e ⟨x, hx, hh⟩ hno
    refine ((C44_singletons L).2 e).2 ⟨⟨x, hx, fun hpos => ?_, hh⟩, hno⟩
    exact hno x ⟨hx, hpos⟩ (List.mem_of_mem_head? hh)
  · intro e he
    obtain ⟨⟨x, hx, _, hh⟩, _⟩ := ((C44_singletons L).2 e).1 he
    exact ⟨x, hx, List.mem_of_mem_head? hh⟩
  · intro z hz e he
    obtain ⟨y, hy, _, hs⟩ := C44_from_input L z hz
    exact ⟨y, hy.1, (hs e).1 he⟩

end Verif.Cbc
