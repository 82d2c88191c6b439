import Mathlib.Data.List.Sort
import Mathlib.Data.Prod.Lex

/-!
# Python `sorted`

`sorted(xs, key=f)` and `sorted(xs, key=f, reverse=True)` are stable: elements with equal keys keep their
order (also with `reverse=True`).  CPython uses Timsort; only its contract (a stable sort) is modelled, by
insertion sort.
-/

namespace Verif.Py

variable {α β : Type}

/-- `sorted(xs, key=f)`. -/
def sortedBy [LinearOrder β] (f : α → β) (xs : List α) : List α :=
  xs.insertionSort (fun a b => f a ≤ f b)

/-- `sorted(xs, key=f, reverse=True)`; stable, so ties keep their order. -/
def sortedByDesc [LinearOrder β] (f : α → β) (xs : List α) : List α :=
  xs.insertionSort (fun a b => f b ≤ f a)

theorem sortedBy_perm [LinearOrder β] (f : α → β) (xs : List α) : (sortedBy f xs).Perm xs :=
  List.perm_insertionSort _ _

theorem sortedByDesc_perm [LinearOrder β] (f : α → β) (xs : List α) :
    (sortedByDesc f xs).Perm xs := List.perm_insertionSort _ _

theorem sortedBy_pairwise [LinearOrder β] (f : α → β) (xs : List α) :
    (sortedBy f xs).Pairwise (fun a b => f a ≤ f b) := by
  have : Std.Total (fun a b : α => f a ≤ f b) := ⟨fun a b => le_total _ _⟩
  have : IsTrans α (fun a b : α => f a ≤ f b) := ⟨fun a b c => le_trans⟩
  exact List.pairwise_insertionSort _ _

theorem sortedByDesc_pairwise [LinearOrder β] (f : α → β) (xs : List α) :
    (sortedByDesc f xs).Pairwise (fun a b => f b ≤ f a) := by
  have : Std.Total (fun a b : α => f b ≤ f a) := ⟨fun a b => le_total _ _⟩
  have : IsTrans α (fun a b : α => f b ≤ f a) := ⟨fun a b c h1 h2 => le_trans h2 h1⟩
  exact List.pairwise_insertionSort _ _

/-- Inserting by `f` descending into a list sorted by (`f` desc, then `g` asc) keeps it so, provided the new
element is `g`-below everything already there: the step behind "sort by `g`, then stably by `f` descending". -/
theorem pairwise_orderedInsert_desc {γ : Type} [LinearOrder β] [LinearOrder γ] (f : α → β) (g : α → γ)
    (a : α) (l : List α) (hg : ∀ b ∈ l, g a ≤ g b)
    (hl : l.Pairwise (fun x y => f y < f x ∨ (f x = f y ∧ g x ≤ g y))) :
    (l.orderedInsert (fun x y => f y ≤ f x) a).Pairwise
      (fun x y => f y < f x ∨ (f x = f y ∧ g x ≤ g y)) := by
  induction l with
  | nil => simp
  | cons b l ih =>
    rw [List.pairwise_cons] at hl
    rw [List.orderedInsert_cons]
    split
    · next hab =>
      rw [List.pairwise_cons]
      refine ⟨?_, List.pairwise_cons.2 hl⟩
      intro c hc
      have hgc := hg c hc
      rcases lt_or_eq_of_le hab with h | h
      · left
        rcases List.mem_cons.1 hc with rfl | hc
        · exact h
        · rcases hl.1 c hc with h' | h'
          · exact lt_trans h' h
          · rw [← h'.1]; exact h
      · rcases List.mem_cons.1 hc with rfl | hc
        · exact Or.inr ⟨h.symm, hgc⟩
        · rcases hl.1 c hc with h' | h'
          · left; rw [← h]; exact h'
          · right; exact ⟨h.symm.trans h'.1, hgc⟩
    · next hab =>
      rw [List.pairwise_cons]
      refine ⟨?_, ih (fun c hc => hg c (List.mem_cons_of_mem _ hc)) hl.2⟩
      intro c hc
      rw [List.mem_orderedInsert] at hc
      rcases hc with rfl | hc
      · left; exact not_le.1 hab
      · exact hl.1 c hc

/-- Sorting by `g` and then stably by `f` descending sorts by (`f` descending, `g` ascending). -/
theorem sortedByDesc_sortedBy_pairwise {γ : Type} [LinearOrder β] [LinearOrder γ] (f : α → β) (g : α → γ)
    (xs : List α) :
    (sortedByDesc f (sortedBy g xs)).Pairwise (fun x y => f y < f x ∨ (f x = f y ∧ g x ≤ g y)) := by
  have h := sortedBy_pairwise g xs
  generalize sortedBy g xs = l at h
  unfold sortedByDesc
  induction l with
  | nil => simp
  | cons a l ih =>
    rw [List.pairwise_cons] at h
    rw [List.insertionSort_cons]
    refine pairwise_orderedInsert_desc f g a _ ?_ (ih h.2)
    intro b hb
    exact h.1 b ((List.mem_insertionSort _).1 hb)

/-- Same for the ascending second sort. -/
theorem pairwise_orderedInsert_asc {γ : Type} [LinearOrder β] [LinearOrder γ] (f : α → β) (g : α → γ)
    (a : α) (l : List α) (hg : ∀ b ∈ l, g a ≤ g b)
    (hl : l.Pairwise (fun x y => f x < f y ∨ (f x = f y ∧ g x ≤ g y))) :
    (l.orderedInsert (fun x y => f x ≤ f y) a).Pairwise
      (fun x y => f x < f y ∨ (f x = f y ∧ g x ≤ g y)) :=
  pairwise_orderedInsert_desc (β := βᵒᵈ) (fun x => OrderDual.toDual (f x)) g a l hg hl

theorem sortedBy_sortedBy_pairwise {γ : Type} [LinearOrder β] [LinearOrder γ] (f : α → β) (g : α → γ)
    (xs : List α) :
    (sortedBy f (sortedBy g xs)).Pairwise (fun x y => f x < f y ∨ (f x = f y ∧ g x ≤ g y)) :=
  sortedByDesc_sortedBy_pairwise (β := βᵒᵈ) (fun x => OrderDual.toDual (f x)) g xs

/-- A permutation of a list that is sorted by an antisymmetric relation is determined. -/
theorem eq_of_perm_of_pairwise {r : α → α → Prop} {l₁ l₂ : List α}
    (anti : ∀ a ∈ l₁, ∀ b ∈ l₁, r a b → r b a → a = b)
    (hp : l₁.Perm l₂) (h₁ : l₁.Pairwise r) (h₂ : l₂.Pairwise r) : l₁ = l₂ := by
  refine List.Perm.eq_of_pairwise ?_ h₁ h₂ hp
  intro a b ha hb hab hba
  exact anti a ha b (hp.mem_iff.2 hb) hab hba

end Verif.Py
