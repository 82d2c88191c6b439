import Verif.Cbc.PropsClean

/-!
# C44: which clusters `clean_clusters` keeps, exactly (`nephosem/models/cbc.py:593-701`)
-/

set_option linter.unusedSectionVars false

namespace Verif.Cbc

open Verif.Py

variable {K E : Type} [Field K] [LinearOrder K] [LinearOrder E]

/-! ## Specification -/

/-- The clusters of positive score, best first; clusters of one score in the order of the input. -/
def ranked (L : List (K × List E)) : List (K × List E) :=
  (sortedByDesc Prod.fst L).takeWhile (fun p => decide (0 < p.1))

/-- The copies of the cluster `c` in `S` stand together: nothing else between them, and no score far from that of the first
copy. -/
def Together (S : List (K × List E)) (c : List E) : Prop :=
  ∃ A h B C, S = A ++ h :: (B ++ C) ∧ SameSet h.2 c ∧ (∀ b ∈ B, SameSet b.2 c ∧ |b.1 - h.1| ≤ 1 / 10 ^ 9) ∧
    (∀ a ∈ A, ¬ SameSet a.2 c) ∧ ∀ a ∈ C, ¬ SameSet a.2 c

/-! ## Lemmas -/

theorem SameSet.trans' {a b c : List E} (h : SameSet a b) (h' : SameSet b c) : SameSet a c := fun e => (h e).trans (h' e)

theorem SameSet.symm' {a b : List E} (h : SameSet a b) : SameSet b a := fun e => (h e).symm

theorem sameSet_dedup {a c : List E} : SameSet a.dedup c ↔ SameSet a c := by
  unfold SameSet
  simp

/-- For clusters without repetition the comparison of the sorted lists compares the sets. -/
theorem differ_eq_false_iff {a b : List E} (ha : a.Nodup) (hb : b.Nodup) : differ a b = false ↔ SameSet a b := by
  constructor
  · intro h e
    exact (differ_false h).mem_iff
  · intro h
    have hp : a.Perm b := (List.perm_ext_iff_of_nodup ha hb).2 h
    have : sortedBy id a = sortedBy id b := by
      apply List.Perm.eq_of_pairwise (le := (· ≤ ·)) (fun x y _ _ => le_antisymm)
      · exact sortedBy_pairwise (id : E → E) a
      · exact sortedBy_pairwise (id : E → E) b
      · exact ((sortedBy_perm id a).trans hp).trans (sortedBy_perm id b).symm
    simp [differ, this]

/-- The list has exactly one entry that is the cluster `c`. -/
def Alone (D : List (K × List E)) (c : List E) : Prop :=
  ∃ D₁ z D₂, D = D₁ ++ z :: D₂ ∧ SameSet z.2 c ∧ (∀ w ∈ D₁, ¬ SameSet w.2 c) ∧ ∀ w ∈ D₂, ¬ SameSet w.2 c

theorem alone_same {p : K × List E} {D : List (K × List E)} {c : List E} (h : SameSet p.2 c) :
    Alone (p :: D) c ↔ ∀ w ∈ D, ¬ SameSet w.2 c := by
  constructor
  · rintro ⟨D₁, z, D₂, e, hz, h1, h2⟩
    cases D₁ with
    | nil => simp only [List.nil_append, List.cons.injEq] at e; rw [e.2]; exact h2
    | cons q D₁ =>
      simp only [List.cons_append, List.cons.injEq] at e
      exact absurd h (e.1 ▸ h1 q (by simp))
  · intro hD
    exact ⟨[], p, D, rfl, h, by simp, hD⟩

theorem alone_other {p : K × List E} {D : List (K × List E)} {c : List E} (h : ¬ SameSet p.2 c) :
    Alone (p :: D) c ↔ Alone D c := by
  constructor
  · rintro ⟨D₁, z, D₂, e, hz, h1, h2⟩
    cases D₁ with
    | nil => simp only [List.nil_append, List.cons.injEq] at e; exact absurd (e.1 ▸ hz) h
    | cons q D₁ =>
      simp only [List.cons_append, List.cons.injEq] at e
      exact ⟨D₁, z, D₂, e.2, hz, fun w hw => h1 w (by simp [hw]), h2⟩
  · rintro ⟨D₁, z, D₂, rfl, hz, h1, h2⟩
    refine ⟨p :: D₁, z, D₂, rfl, hz, ?_, h2⟩
    intro w hw
    rcases List.mem_cons.1 hw with rfl | hw
    · exact h
    · exact h1 w hw

theorem together_same {p : K × List E} {l : List (K × List E)} {c : List E} (h : SameSet p.2 c) :
    Together (p :: l) c ↔
      ∃ B C, l = B ++ C ∧ (∀ b ∈ B, SameSet b.2 c ∧ |b.1 - p.1| ≤ 1 / 10 ^ 9) ∧ ∀ a ∈ C, ¬ SameSet a.2 c := by
  constructor
  · rintro ⟨A, q, B, C, e, hq, hB, hA, hC⟩
    cases A with
    | nil =>
      simp only [List.nil_append, List.cons.injEq] at e
      obtain ⟨rfl, rfl⟩ := e
      exact ⟨B, C, rfl, hB, hC⟩
    | cons a A =>
      simp only [List.cons_append, List.cons.injEq] at e
      exact absurd h (e.1 ▸ hA a (by simp))
  · rintro ⟨B, C, rfl, hB, hC⟩
    exact ⟨[], p, B, C, rfl, h, hB, by simp, hC⟩

theorem together_other {p : K × List E} {l : List (K × List E)} {c : List E} (h : ¬ SameSet p.2 c) :
    Together (p :: l) c ↔ Together l c := by
  constructor
  · rintro ⟨A, q, B, C, e, hq, hB, hA, hC⟩
    cases A with
    | nil =>
      simp only [List.nil_append, List.cons.injEq] at e
      exact absurd (e.1 ▸ hq) h
    | cons a A =>
      simp only [List.cons_append, List.cons.injEq] at e
      exact ⟨A, q, B, C, e.2, hq, hB, fun w hw => hA w (by simp [hw]), hC⟩
  · rintro ⟨A, q, B, C, rfl, hq, hB, hA, hC⟩
    refine ⟨p :: A, q, B, C, rfl, hq, hB, ?_, hC⟩
    intro w hw
    rcases List.mem_cons.1 hw with rfl | hw
    · exact h
    · exact hA w hw

/-- After another cluster, no copy is kept iff there is none. -/
theorem dedupLoop_other (c : List E) (prev : K × List E) (l : List (K × List E)) (hp : ¬ SameSet prev.2 c) :
    (∀ x ∈ dedupLoop prev l, ¬ SameSet x.2 c) ↔ ∀ a ∈ l, ¬ SameSet a.2 c := by
  constructor
  · intro h a ha hs
    rcases dedupLoop_covers prev l a ha with h1 | ⟨x, hx, h1⟩
    · exact hp (h1.symm'.trans' hs)
    · exact h x hx (h1.symm'.trans' hs)
  · intro h x hx hs
    obtain ⟨y, hy, rfl⟩ := dedupLoop_mem prev l hx
    exact h y hy (sameSet_dedup.1 hs)

/-- After a copy, no further copy is kept iff the others follow at once. -/
theorem dedupLoop_same (c : List E) (prev : K × List E) (l : List (K × List E)) (hp : SameSet prev.2 c)
    (hpn : prev.2.Nodup) (hnd : ∀ x ∈ l, x.2.Nodup) :
    (∀ x ∈ dedupLoop prev l, ¬ SameSet x.2 c) ↔
      ∃ B C, l = B ++ C ∧ (∀ b ∈ B, SameSet b.2 c ∧ |b.1 - prev.1| ≤ 1 / 10 ^ 9) ∧ ∀ a ∈ C, ¬ SameSet a.2 c := by
  induction l with
  | nil => exact ⟨fun _ => ⟨[], [], rfl, by simp, by simp⟩, fun _ => by simp [dedupLoop]⟩
  | cons p l ih =>
    obtain ⟨s, cl⟩ := p
    have hcl : cl.Nodup := hnd (s, cl) (by simp)
    have hnd' : ∀ x ∈ l, x.2.Nodup := fun x hx => hnd x (by simp [hx])
    simp only [dedupLoop]
    split
    · next hcond =>
      by_cases hs : SameSet cl c
      · constructor
        · intro h
          exact absurd (sameSet_dedup.2 hs) (h _ List.mem_cons_self)
        · rintro ⟨B, C, e, hB, hC⟩
          exfalso
          cases B with
          | nil =>
            simp only [List.nil_append] at e
            exact hC (s, cl) (e ▸ List.mem_cons_self) hs
          | cons b B =>
            simp only [List.cons_append, List.cons.injEq] at e
            have hb := hB b (by simp)
            rw [← e.1] at hb
            rcases hcond with h1 | h1
            · exact absurd hb.2 (not_le.2 h1)
            · rw [(differ_eq_false_iff hcl hpn).2 (hs.trans' hp.symm')] at h1
              exact absurd h1 (by simp)
      · constructor
        · intro h
          refine ⟨[], (s, cl) :: l, rfl, by simp, ?_⟩
          intro a ha
          rcases List.mem_cons.1 ha with rfl | ha
          · exact hs
          · exact (dedupLoop_other c (s, cl) l hs).1 (fun x hx => h x (by simp [hx])) a ha
        · rintro ⟨B, C, e, hB, hC⟩
          have hl : ∀ a ∈ l, ¬ SameSet a.2 c := by
            cases B with
            | nil =>
              simp only [List.nil_append] at e
              exact fun a ha => hC a (e ▸ List.mem_cons_of_mem _ ha)
            | cons b B =>
              simp only [List.cons_append, List.cons.injEq] at e
              have hb := (hB b (by simp)).1
              rw [← e.1] at hb
              exact absurd hb hs
          intro x hx
          rcases List.mem_cons.1 hx with rfl | hx
          · exact fun h => hs (sameSet_dedup.1 h)
          · exact (dedupLoop_other c (s, cl) l hs).2 hl x hx
    · next hcond =>
      have hd : differ cl prev.2 = false := by
        cases hd : differ cl prev.2 with
        | false => rfl
        | true => exact absurd (.inr hd) hcond
      have hs : SameSet cl c := ((differ_eq_false_iff hcl hpn).1 hd).trans' hp
      have hnear : |s - prev.1| ≤ 1 / 10 ^ 9 := not_lt.1 (fun h => hcond (.inl h))
      rw [ih hnd']
      constructor
      · rintro ⟨B, C, rfl, hB, hC⟩
        refine ⟨(s, cl) :: B, C, rfl, ?_, hC⟩
        intro b hb
        rcases List.mem_cons.1 hb with rfl | hb
        · exact ⟨hs, hnear⟩
        · exact hB b hb
      · rintro ⟨B, C, e, hB, hC⟩
        cases B with
        | nil =>
          simp only [List.nil_append] at e
          exact absurd hs (hC (s, cl) (e ▸ List.mem_cons_self))
        | cons b B =>
          simp only [List.cons_append, List.cons.injEq] at e
          exact ⟨B, C, e.2, fun b hb => hB b (by simp [hb]), hC⟩

/-- After another cluster, one copy is kept iff the copies stand together. -/
theorem dedupLoop_alone (c : List E) (prev : K × List E) (l : List (K × List E)) (hp : ¬ SameSet prev.2 c)
    (hpn : prev.2.Nodup) (hnd : ∀ x ∈ l, x.2.Nodup) : Alone (dedupLoop prev l) c ↔ Together l c := by
  induction l generalizing prev with
  | nil =>
    constructor
    · rintro ⟨D₁, z, D₂, e, -⟩
      simp [dedupLoop] at e
    · rintro ⟨A, q, B, C, e, -⟩
      simp at e
  | cons p l ih =>
    obtain ⟨s, cl⟩ := p
    have hcl : cl.Nodup := hnd (s, cl) (by simp)
    have hnd' : ∀ x ∈ l, x.2.Nodup := fun x hx => hnd x (by simp [hx])
    simp only [dedupLoop]
    by_cases hs : SameSet cl c
    · have hd : differ cl prev.2 = true := by
        cases hd : differ cl prev.2 with
        | true => rfl
        | false => exact absurd (((differ_eq_false_iff hcl hpn).1 hd).symm'.trans' hs) hp
      rw [if_pos (.inr hd), alone_same (sameSet_dedup.2 hs), dedupLoop_same c (s, cl) l hs hcl hnd',
        together_same (p := (s, cl)) hs]
    · rw [together_other (p := (s, cl)) hs]
      split
      · rw [alone_other (fun h => hs (sameSet_dedup.1 h)), ih (s, cl) hs hcl hnd']
      · exact ih prev hp hpn hnd'

theorem removeDuplicate_alone (c : List E) (l : List (K × List E)) (hnd : ∀ x ∈ l, x.2.Nodup) :
    Alone (removeDuplicate l) c ↔ Together l c := by
  cases l with
  | nil =>
    constructor
    · rintro ⟨D₁, z, D₂, e, -⟩
      simp [removeDuplicate] at e
    · rintro ⟨A, q, B, C, e, -⟩
      simp at e
  | cons p l =>
    obtain ⟨s, cl⟩ := p
    have hcl : cl.Nodup := hnd (s, cl) (by simp)
    have hnd' : ∀ x ∈ l, x.2.Nodup := fun x hx => hnd x (by simp [hx])
    simp only [removeDuplicate]
    by_cases hs : SameSet cl c
    · rw [alone_same (sameSet_dedup.2 hs), dedupLoop_same c (s, cl) l hs hcl hnd', together_same (p := (s, cl)) hs]
    · rw [alone_other (fun h => hs (sameSet_dedup.1 h)), dedupLoop_alone c (s, cl) l hs hcl hnd',
        together_other (p := (s, cl)) hs]

theorem alone_iff (D : List (K × List E)) (c : List E) :
    Alone D c ↔ ∃ (i : Nat) (z : K × List E), D[i]? = some z ∧ SameSet z.2 c ∧
      ∀ (j : Nat) y, D[j]? = some y → SameSet y.2 c → j = i := by
  induction D with
  | nil =>
    constructor
    · rintro ⟨D₁, z, D₂, e, -⟩
      simp at e
    · rintro ⟨i, z, h, -⟩
      simp at h
  | cons p D ih =>
    by_cases hs : SameSet p.2 c
    · rw [alone_same hs]
      constructor
      · intro h
        refine ⟨0, p, rfl, hs, ?_⟩
        intro j y hj hy
        cases j with
        | zero => rfl
        | succ j =>
          rw [List.getElem?_cons_succ] at hj
          exact absurd hy (h y (List.mem_of_getElem? hj))
      · rintro ⟨i, z, hi, hz, hu⟩ w hw hws
        have h0 := hu 0 p rfl hs
        obtain ⟨k, hk⟩ := List.getElem?_of_mem hw
        have h1 := hu (k + 1) w (by rw [List.getElem?_cons_succ]; exact hk) hws
        omega
    · rw [alone_other hs, ih]
      constructor
      · rintro ⟨i, z, hi, hz, hu⟩
        refine ⟨i + 1, z, by rw [List.getElem?_cons_succ]; exact hi, hz, ?_⟩
        intro j y hj hy
        cases j with
        | zero =>
          rw [List.getElem?_cons_zero] at hj
          exact absurd (Option.some.inj hj ▸ hy) hs
        | succ j =>
          rw [List.getElem?_cons_succ] at hj
          rw [hu j y hj hy]
      · rintro ⟨i, z, hi, hz, hu⟩
        cases i with
        | zero =>
          rw [List.getElem?_cons_zero] at hi
          exact absurd (Option.some.inj hi ▸ hz) hs
        | succ i =>
          rw [List.getElem?_cons_succ] at hi
          refine ⟨i, z, hi, hz, ?_⟩
          intro j y hj hy
          have := hu (j + 1) y (by rw [List.getElem?_cons_succ]; exact hj) hy
          omega

/-! ## C44 -/

/-- C44, exactly: a cluster is kept (under one of its scores) if and only if no other cluster of positive
score is a part of it and its copies stand together in the ranking.  Clusters are non-empty and without repetition, as CBC's
are. -/
theorem C44_exact (L : List (K × List E)) (hne : ∀ x, Positive L x → x.2 ≠ []) (hnd : ∀ x, Positive L x → x.2.Nodup)
    (c : List E) :
    (∃ z ∈ (cleanClusters L).1, SameSet z.2 c) ↔
      (∀ y, Positive L y → (∀ e ∈ y.2, e ∈ c) → SameSet y.2 c) ∧ Together (ranked L) c := by
  have hS : ∀ x, x ∈ ranked L ↔ Positive L x := mem_takeWhile_pos L
  have hD : distinctClusters L = removeDuplicate (ranked L) := rfl
  have hne' : ∀ x ∈ distinctClusters L, x.2 ≠ [] := by
    intro x hx
    obtain ⟨y, hy, rfl⟩ := removeDuplicate_mem hx
    simpa using hne y ((hS y).1 hy)
  rw [← removeDuplicate_alone c (ranked L) (fun x hx => hnd x ((hS x).1 hx)), ← hD, alone_iff, cleanClusters_fst]
  constructor
  · rintro ⟨z, hz, hzc⟩
    obtain ⟨i, hi, hu⟩ := (mem_removeSuperset _ z).1 hz
    have hu' : ∀ (j : Nat) y, (distinctClusters L)[j]? = some y → (∀ e ∈ y.2, e ∈ c) → j = i := by
      intro j y hj hsub
      by_contra hji
      exact hu j y hj hji (hne' y (List.mem_of_getElem? hj)) (fun e he => (hzc e).2 (hsub e he))
    refine ⟨?_, i, z, hi, hzc, fun j y hj hy => hu' j y hj (fun e he => (hy e).1 he)⟩
    intro y hy hsub
    obtain ⟨w, hw, hyw⟩ := removeDuplicate_covers (ranked L) y ((hS y).2 hy)
    obtain ⟨j, hj⟩ := List.getElem?_of_mem hw
    have hji := hu' j w (hD ▸ hj) (fun e he => hsub e ((hyw e).2 he))
    subst hji
    rw [hD, hj] at hi
    obtain rfl := Option.some.inj hi
    exact hyw.trans' hzc
  · rintro ⟨hmin, i, z, hi, hzc, hu⟩
    refine ⟨z, (mem_removeSuperset _ z).2 ⟨i, hi, ?_⟩, hzc⟩
    intro j y hj hji _ hsub
    obtain ⟨w, hw, rfl⟩ := removeDuplicate_mem (hD ▸ List.mem_of_getElem? hj)
    have := hmin w ((hS w).1 hw) (fun e he => (hzc e).1 (hsub e (by simpa using he)))
    exact hji (hu j _ hj (sameSet_dedup.2 this))

/-- Consequently a cluster of positive score has a part that is kept if and only if it has a smallest part whose copies stand
together. -/
theorem C44_exact_part (L : List (K × List E)) (hne : ∀ x, Positive L x → x.2 ≠ []) (hnd : ∀ x, Positive L x → x.2.Nodup)
    (x : K × List E) :
    (∃ z ∈ (cleanClusters L).1, ∀ e ∈ z.2, e ∈ x.2) ↔
      ∃ c, (∃ s, Positive L (s, c)) ∧ (∀ e ∈ c, e ∈ x.2) ∧
        (∀ y, Positive L y → (∀ e ∈ y.2, e ∈ c) → SameSet y.2 c) ∧ Together (ranked L) c := by
  constructor
  · rintro ⟨z, hz, hsub⟩
    obtain ⟨y, hy, -, hzy⟩ := C44_from_input L z hz
    refine ⟨y.2, ⟨y.1, hy⟩, fun e he => hsub e ((hzy e).2 he), ?_⟩
    exact (C44_exact L hne hnd y.2).1 ⟨z, hz, hzy⟩
  · rintro ⟨c, -, hsub, hmin⟩
    obtain ⟨z, hz, hzc⟩ := (C44_exact L hne hnd c).2 hmin
    exact ⟨z, hz, fun e he => hsub e ((hzc e).1 he)⟩

/-- Both outcomes occur: `{1, 2}` twice in a row is kept, with `{2, 3}` of the same score between them it is lost. -/
example : cleanClusters ([(1, [1, 2]), (1, [2, 1]), (1, [2, 3])] : List (ℚ × List Nat)) = ([(1, [1, 2]), (1, [2, 3])], []) ∧
    cleanClusters ([(1, [1, 2]), (1, [2, 3]), (1, [2, 1])] : List (ℚ × List Nat)) = ([(1, [2, 3])], []) ∧
    ranked ([(1, [1, 2]), (1, [2, 3]), (1, [2, 1])] : List (ℚ × List Nat)) = [(1, [1, 2]), (1, [2, 3]), (1, [2, 1])] := by
  decide +kernel

end Verif.Cbc
