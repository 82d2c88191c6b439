import Verif.Vocab.PlainLemmas

/-! # C20, characters and counts of plain vocabulary files -/

set_option linter.unusedSectionVars false

namespace Verif.Vocab.Plain
open Verif.Py Verif.Vocab

/-- The line boundaries of Python (LF, VT, FF, CR, FS, GS, RS, NEL, LS, PS). -/
def boundaries : List Nat := [10, 11, 12, 13, 28, 29, 30, 133, 8232, 8233]

theorem isBreak_iff (c : Char) : isBreak c = true ↔ c.toNat ∈ boundaries := by
  simp only [isBreak, boundaries, Bool.or_eq_true, Bool.and_eq_true, decide_eq_true_eq, beq_iff_eq, List.mem_cons, List.not_mem_nil, or_false]
  omega

theorem lines_acc (acc a : Str) (h : ∀ x ∈ a, isBreak x = false) (rest : Str) : lines acc (a ++ rest) = lines (a.reverse ++ acc) rest := by
  induction a generalizing acc with
  | nil => rfl
  | cons x a ih =>
    rw [List.cons_append, lines, if_neg (by simp [h x (by simp)]), ih _ (fun y hy => h y (by simp [hy]))]
    simp

/-- **C20**, lines: a text is cut after each of the ten boundary characters and nowhere else. -/
theorem C20_boundaries (a rest : Str) (c : Char) (ha : ∀ x ∈ a, x.toNat ∉ boundaries) :
    (c.toNat ∈ boundaries → lines [] (a ++ c :: rest) = (a ++ [c]) :: lines [] rest) ∧ (a ≠ [] → lines [] a = [a]) := by
  have ha' : ∀ x ∈ a, isBreak x = false := by
    intro x hx
    cases hb : isBreak x with
    | false => rfl
    | true => exact absurd ((isBreak_iff x).1 hb) (ha x hx)
  constructor
  · intro hc
    rw [lines_acc [] a ha', lines, if_pos ((isBreak_iff c).2 hc)]
    simp
  · intro hne
    have := lines_acc [] a ha' []
    rw [List.append_nil] at this
    rw [this, lines, if_neg (by simpa using hne)]
    simp

/-- A text that stands for a number: digits, at least one, perhaps after a minus. -/
def Number (f : Str) : Prop := ∃ ds : Str, ds ≠ [] ∧ (∀ c ∈ ds, 48 ≤ c.toNat ∧ c.toNat ≤ 57) ∧ (f = ds ∨ f = '-' :: ds)

theorem parseDigits_isSome (acc : Nat) (s : Str) : (parseDigits acc s).isSome ↔ ∀ c ∈ s, 48 ≤ c.toNat ∧ c.toNat ≤ 57 := by
  induction s generalizing acc with
  | nil => simp [parseDigits]
  | cons c s ih =>
    rw [parseDigits]
    split
    · rename_i h
      rw [ih]
      simp [h]
    · rename_i h
      simp [h]

theorem parseInt_isSome (f : Str) : (parseInt f).isSome ↔ Number f := by
  cases f with
  | nil =>
    simp only [parseInt, Option.isSome_none, Bool.false_eq_true, false_iff]
    rintro ⟨ds, h1, _, h2 | h2⟩
    · exact h1 h2.symm
    · exact (nomatch h2)
  | cons c cs =>
    by_cases hc : c = '-'
    · subst hc
      have hp : (parseInt ('-' :: cs)).isSome ↔ cs ≠ [] ∧ (parseDigits 0 cs).isSome := by
        simp only [parseInt]
        by_cases hcs : cs = []
        · simp [hcs]
        · rw [if_neg hcs]
          cases parseDigits 0 cs <;> simp [hcs]
      rw [hp, parseDigits_isSome]
      constructor
      · rintro ⟨h1, h2⟩
        exact ⟨cs, h1, h2, Or.inr rfl⟩
      · rintro ⟨ds, h1, h2, h3 | h3⟩
        · subst h3
          have := (h2 '-' (by simp)).1
          exact absurd this (by decide)
        · obtain rfl : cs = ds := (List.cons.inj h3).2
          exact ⟨h1, h2⟩
    · have hp : (parseInt (c :: cs)).isSome ↔ (parseDigits 0 (c :: cs)).isSome := by
        unfold parseInt
        split
        · rename_i h; exact (nomatch h)
        · rename_i h; exact absurd (List.cons.inj h).1 hc
        · cases parseDigits 0 (c :: cs) <;> simp
      rw [hp, parseDigits_isSome]
      constructor
      · intro h
        exact ⟨c :: cs, by simp, h, Or.inl rfl⟩
      · rintro ⟨ds, h1, h2, h3 | h3⟩
        · rw [h3]; exact h2
        · exact absurd (List.cons.inj h3).1 hc

/-- **C20**, counts: a line is accepted exactly if its count is a number, otherwise loading is a `ValueError`; nothing is guessed. -/
theorem C20_count (k f : Str) (hk : Good k) (hf : f ≠ []) (hs : ∀ c ∈ f, isSpace c = false) (rest : Str) :
    (¬ Number f → load (k ++ '\t' :: f ++ '\n' :: rest) = .error .valueError) ∧
    (Number f → ∃ n, load (k ++ '\t' :: f ++ ['\n']) = .ok (mk' [(k, n)])) := by
  have hb : ∀ c ∈ k ++ '\t' :: f, isBreak c = false := by
    intro c hc
    rcases List.mem_append.1 hc with hc | hc
    · exact hk.2.2 c hc
    · rcases List.mem_cons.1 hc with rfl | hc
      · decide
      · cases hbr : isBreak c with
        | false => rfl
        | true => have := isSpace_of_isBreak hbr; rw [hs c hc] at this; exact (nomatch this)
  have ht : '\t' ∉ f := by
    intro h
    have := hs _ h
    revert this
    decide
  have hline : ∀ d, loadLine d (k ++ '\t' :: f ++ ['\n']) = match parseInt f with
      | some n => .ok (d.set k n)
      | none => .error .valueError := by
    intro d
    unfold loadLine
    rw [strip_row k f hk.1 hf hs, splitTab_append _ _ hk.2.1, splitTab_noTab _ ht]
    simp only
    cases parseInt f <;> rfl
  constructor
  · intro hn
    have hp : parseInt f = none := by
      cases h : parseInt f with
      | none => rfl
      | some n => exact absurd ((parseInt_isSome f).1 (by rw [h]; rfl)) hn
    unfold load
    rw [lines_row [] _ rest hb, List.foldlM_cons]
    simp only [List.reverse_nil, List.nil_append]
    rw [hline, hp]
    rfl
  · intro hn
    obtain ⟨n, hp⟩ := Option.isSome_iff_exists.1 ((parseInt_isSome f).2 hn)
    refine ⟨n, ?_⟩
    unfold load
    rw [lines_row [] _ [] hb, List.foldlM_cons]
    simp only [List.reverse_nil, List.nil_append]
    rw [hline, hp]
    rfl

example : Good ['w', '/', 'N'] ∧ ¬ Number ['-'] ∧ Number ['-', '1', '2'] := by
  refine ⟨by decide, ?_, ⟨['1', '2'], by decide, by decide, Or.inr rfl⟩⟩
  rintro ⟨ds, h1, h2, h3 | h3⟩
  · subst h3; have := h2 '-' (by simp); revert this; decide
  · exact h1 (List.cons.inj h3).2.symm

end Verif.Vocab.Plain
