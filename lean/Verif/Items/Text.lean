import Verif.Vocab.Plain

/-!
# Splitting and joining strings with a one-character separator
-/

namespace Verif.Items

open Verif.Vocab.Plain (Str)

/-- `s.split(c)` for a one-character separator. -/
def split (c : Char) : Str → List Str
  | [] => [[]]
  | x :: xs => if x = c then [] :: split c xs else
    match split c xs with
    | [] => [[x]]
    | p :: ps => (x :: p) :: ps

/-- `c.join(parts)` for a one-character separator. -/
def join (c : Char) : List Str → Str
  | [] => []
  | [s] => s
  | s :: t :: ts => s ++ c :: join c (t :: ts)

theorem split_ne_nil (c : Char) (s : Str) : split c s ≠ [] := by
  cases s with
  | nil => simp [split]
  | cons x xs =>
    rw [split]
    split
    · simp
    · split <;> simp

theorem join_cons (c : Char) (s : Str) {ts : List Str} (h : ts ≠ []) : join c (s :: ts) = s ++ c :: join c ts := by
  cases ts with
  | nil => exact absurd rfl h
  | cons t ts => rfl

/-- Joining undoes splitting. -/
theorem join_split (c : Char) (s : Str) : join c (split c s) = s := by
  induction s with
  | nil => rfl
  | cons x xs ih =>
    rw [split]
    split
    · rename_i hx
      rw [join_cons c _ (split_ne_nil c xs), ih, hx]
      rfl
    · cases hs : split c xs with
      | nil => exact absurd hs (split_ne_nil c xs)
      | cons p ps =>
        rw [hs] at ih
        simp only
        cases ps with
        | nil =>
          simp only [join] at ih ⊢
          rw [ih]
        | cons q qs =>
          simp only [join, List.cons_append] at ih ⊢
          rw [ih]

theorem split_noc (c : Char) (s : Str) (h : c ∉ s) : split c s = [s] := by
  induction s with
  | nil => rfl
  | cons x xs ih =>
    simp only [List.mem_cons, not_or] at h
    rw [split, if_neg (Ne.symm h.1), ih h.2]

theorem split_append (c : Char) (s r : Str) (h : c ∉ s) : split c (s ++ c :: r) = s :: split c r := by
  induction s with
  | nil => simp [split]
  | cons x xs ih =>
    simp only [List.mem_cons, not_or] at h
    rw [List.cons_append, split, if_neg (Ne.symm h.1), ih h.2]

/-- Splitting undoes joining if no part contains the separator. -/
theorem split_join (c : Char) (l : List Str) (hl : l ≠ []) (h : ∀ s ∈ l, c ∉ s) : split c (join c l) = l := by
  induction l with
  | nil => exact absurd rfl hl
  | cons s ts ih =>
    cases ts with
    | nil => exact split_noc c s (h s (by simp))
    | cons t ts =>
      rw [join_cons c s (by simp), split_append c s _ (h s (by simp)), ih (by simp) (fun s hs => h s (by simp [hs]))]

/-- No part of a split contains the separator. -/
theorem split_mem (c : Char) (s : Str) : ∀ p ∈ split c s, c ∉ p := by
  induction s with
  | nil => simp [split]
  | cons x xs ih =>
    rw [split]
    split
    · intro p hp
      rcases List.mem_cons.1 hp with rfl | hp
      · simp
      · exact ih p hp
    · rename_i hx
      cases hs : split c xs with
      | nil => exact absurd hs (split_ne_nil c xs)
      | cons q qs =>
        rw [hs] at ih
        intro p hp
        simp only at hp
        rcases List.mem_cons.1 hp with rfl | hp
        · simp only [List.mem_cons, not_or]
          exact ⟨Ne.symm hx, ih q (by simp)⟩
        · exact ih p (by simp [hp])

end Verif.Items
