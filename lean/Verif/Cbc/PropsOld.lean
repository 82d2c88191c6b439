import Verif.Cbc.Old
import Verif.Cbc.PropsCommittee
import Verif.Matrix.Lemmas

/-!
# C170: the older committee selection keeps dissimilar committees and drops only similar ones
-/

set_option linter.unusedSectionVars false

namespace Verif.Cbc
open Verif.Py

section
variable {K E V : Type} [LinearOrder K]

/-- The greedy rule: a position is selected iff it is below `theta` to every selected position before it. -/
def Greedy (n : Nat) (sim : Nat → Nat → K) (theta : K) (C : List Nat) : Prop :=
  C.Pairwise (· < ·) ∧ (∀ p ∈ C, p < n) ∧ ∀ p < n, p ∈ C ↔ ∀ q ∈ C, q < p → sim q p < theta

/-- The greedy rule determines the selection. -/
theorem greedy_unique {n : Nat} {sim : Nat → Nat → K} {theta : K} {C C' : List Nat} (h : Greedy n sim theta C)
    (h' : Greedy n sim theta C') : C = C' := by
  have key : ∀ p, p < n → (p ∈ C ↔ p ∈ C') := by
    intro p
    induction p using Nat.strong_induction_on with
    | _ p ih =>
      intro hp
      rw [h.2.2 p hp, h'.2.2 p hp]
      constructor
      · intro g q hq hqp; exact g q ((ih q hqp (by omega)).2 hq) hqp
      · intro g q hq hqp; exact g q ((ih q hqp (by omega)).1 hq) hqp
  refine List.Perm.eq_of_pairwise (le := (· < ·)) (fun a b _ _ x y => absurd x (by omega)) h.1 h'.1 ?_
  refine (List.perm_ext_iff_of_nodup (h.1.imp (fun x => Nat.ne_of_lt x)) (h'.1.imp (fun x => Nat.ne_of_lt x))).2 (fun p => ?_)
  constructor
  · intro hp; exact (key p (h.2.1 p hp)).1 hp
  · intro hp; exact (key p (h'.2.1 p hp)).2 hp

theorem greedy_step {n : Nat} {sim : Nat → Nat → K} {theta : K} {C : List Nat} (h : Greedy n sim theta C) :
    Greedy (n + 1) sim theta (keepStep sim theta C n) := by
  obtain ⟨h1, h2, h3⟩ := h
  unfold keepStep
  split
  · rename_i ha
    obtain ⟨j, hj, hs⟩ := List.any_eq_true.1 ha
    have hs : theta ≤ sim j n := of_decide_eq_true hs
    refine ⟨h1, fun p hp => by have := h2 p hp; omega, fun p hp => ?_⟩
    by_cases e : p = n
    · subst e
      constructor
      · intro hp; have := h2 p hp; omega
      · intro g; exact absurd (g j hj (h2 j hj)) (not_lt.2 hs)
    · exact h3 p (by omega)
  · rename_i ha
    have ha : ∀ j ∈ C, sim j n < theta := by
      intro j hj
      by_contra hc
      exact ha (List.any_eq_true.2 ⟨j, hj, decide_eq_true (not_lt.1 hc)⟩)
    refine ⟨List.pairwise_append.2 ⟨h1, List.pairwise_singleton _ _, fun a ha' b hb => ?_⟩, fun p hp => ?_, fun p hp => ?_⟩
    · rw [List.mem_singleton] at hb; subst hb; exact h2 a ha'
    · rcases List.mem_append.1 hp with hp | hp
      · have := h2 p hp; omega
      · rw [List.mem_singleton] at hp; omega
    · by_cases e : p = n
      · subst e
        constructor
        · intro _ q hq hqp
          rcases List.mem_append.1 hq with hq | hq
          · exact ha q hq
          · rw [List.mem_singleton] at hq; omega
        · intro _; simp
      · have hp' : p < n := by omega
        have e1 : p ∈ C ++ [n] ↔ p ∈ C := by simp [e]
        rw [e1, h3 p hp']
        constructor
        · intro g q hq hqp
          rcases List.mem_append.1 hq with hq | hq
          · exact g q hq hqp
          · rw [List.mem_singleton] at hq; omega
        · intro g q hq hqp; exact g q (List.mem_append_left _ hq) hqp

theorem keepPositions_greedy (n : Nat) (hn : 0 < n) (sim : Nat → Nat → K) (theta : K) :
    Greedy n sim theta (keepPositions n sim theta) := by
  obtain ⟨k, rfl⟩ : ∃ k, n = k + 1 := ⟨n - 1, by omega⟩
  unfold keepPositions
  rw [Nat.add_sub_cancel]
  clear hn
  induction k with
  | zero =>
    refine ⟨by simp, by simp, fun p hp => ?_⟩
    obtain rfl : p = 0 := by omega
    simp
  | succ k ih =>
    rw [List.range'_concat, List.foldl_append, List.foldl_cons, List.foldl_nil]
    have := greedy_step ih
    rwa [Nat.one_mul, Nat.add_comm 1 k]

end

section
variable {K E V : Type} [Field K] [LinearOrder K]

theorem filterMap_get {α : Type} (l : List α) (C : List Nat) (h : ∀ p ∈ C, p < l.length) :
    List.Forall₂ (fun p x => l[p]? = some x) C (C.filterMap (l[·]?)) := by
  induction C with
  | nil => exact .nil
  | cons p C ih =>
    have hp := h p (by simp)
    rw [List.filterMap_cons]
    simp only [List.getElem?_eq_getElem hp]
    exact .cons (by simp [List.getElem?_eq_getElem hp]) (ih (fun q hq => h q (by simp [hq])))

/-- **C170.** What the selection returns, if it returns: the clusters at certain positions of the list, in their order,
with their own vectors.  A cluster is selected iff its similarity to every cluster selected before it is below the
threshold; the first one always is.  The rule determines the positions (`greedy_unique`). -/
theorem C170_selection (cos : V → V → K) (vec : List E → Except Err V) (theta : K) (L : List (K × List E))
    (R : List (K × List E)) (X : List V) (h : step3Old cos vec theta L = .ok (R, X)) :
    ∃ C : List Nat, C.Pairwise (· < ·) ∧ List.Forall₂ (fun p r => L[p]? = some r) C R ∧
      List.Forall₂ (fun r v => vec r.2 = .ok v) R X ∧ 0 ∈ C ∧
      ∀ p x v, L[p]? = some x → vec x.2 = .ok v →
        (p ∈ C ↔ ∀ q ∈ C, q < p → ∀ y w, L[q]? = some y → vec y.2 = .ok w → cos w v < theta) := by
  unfold step3Old at h
  obtain ⟨vs, hvs, h⟩ := bind_ok h
  split at h
  · cases h
  rename_i hne
  simp only [pure, Except.pure, Except.ok.injEq, Prod.mk.injEq] at h
  obtain ⟨rfl, rfl⟩ := h
  have hf := (Verif.Matrix.mapM_ok_iff _ _ _).1 hvs
  have hlen : L.length = vs.length := hf.length_eq
  have get : ∀ {p : Nat} {x : K × List E}, L[p]? = some x → ∃ v, vs[p]? = some v ∧ vec x.2 = .ok v := by
    intro p x hx
    have hp : p < L.length := (List.getElem?_eq_some_iff.1 hx).1
    refine ⟨vs[p]'(by omega), List.getElem?_eq_getElem (by omega), ?_⟩
    have := List.Forall₂.get hf hp (by omega)
    simp only [List.get_eq_getElem] at this
    rw [(List.getElem?_eq_some_iff.1 hx).2] at this
    exact this
  have hpos : 0 < vs.length := List.length_pos_iff.2 hne
  have hg := keepPositions_greedy vs.length hpos (simAt cos vs vs) theta
  obtain ⟨h1, h2, h3⟩ := hg
  refine ⟨_, h1, filterMap_get L _ (fun p hp => by have := h2 p hp; omega), ?_, (h3 0 hpos).2 (by omega), ?_⟩
  · generalize keepPositions vs.length (simAt cos vs vs) theta = C at h2
    clear h1 h3
    induction C with
    | nil => exact .nil
    | cons p C ih =>
      have hp := h2 p (by simp)
      have hx : L[p]? = some (L[p]'(by omega)) := List.getElem?_eq_getElem (by omega)
      obtain ⟨v, hv, hv'⟩ := get hx
      rw [List.filterMap_cons, List.filterMap_cons]
      simp only [hx, hv]
      exact .cons hv' (ih (fun q hq => h2 q (by simp [hq])))
  · intro p x v hx hv
    obtain ⟨v', hv', e⟩ := get hx
    rw [e] at hv
    cases hv
    have hp : p < vs.length := (List.getElem?_eq_some_iff.1 hv').1
    rw [h3 p hp]
    constructor
    · intro g q hq hqp y w hy hw
      obtain ⟨w', hw', e'⟩ := get hy
      rw [e'] at hw
      cases hw
      rw [← simAt_lt (cos := cos) hw' hv']
      exact g q hq hqp
    · intro g q hq hqp
      have hq' := h2 q hq
      have hy : L[q]? = some (L[q]'(by omega)) := List.getElem?_eq_getElem (by omega)
      obtain ⟨w', hw', e'⟩ := get hy
      rw [simAt_lt (cos := cos) hw' hv']
      exact g q hq hqp _ _ hy e'

theorem step3Old_vec {cos : V → V → K} {vec : List E → Except Err V} {theta : K} {L : List (K × List E)}
    {r : List (K × List E) × List V} (h : step3Old cos vec theta L = .ok r) : ∀ x ∈ L, ∃ v, vec x.2 = .ok v := by
  unfold step3Old at h
  obtain ⟨vs, hvs, h'⟩ := bind_ok h
  have hf := (Verif.Matrix.mapM_ok_iff _ _ _).1 hvs
  intro x hx
  clear h hvs h'
  induction hf with
  | nil => simp at hx
  | cons e _ ih =>
    rcases List.mem_cons.1 hx with rfl | hx
    · exact ⟨_, e⟩
    · exact ih hx

/-- **C170**, in pairs: of two selected clusters the similarity is below the threshold; every cluster left out reaches
it with a selected cluster earlier in the list. -/
theorem C170_pairs (cos : V → V → K) (vec : List E → Except Err V) (theta : K) (L : List (K × List E))
    (R : List (K × List E)) (X : List V) (h : step3Old cos vec theta L = .ok (R, X)) :
    X.Pairwise (fun w v => cos w v < theta) ∧
      ∀ x ∈ L, x ∉ R → ∃ y ∈ R, ∃ v w, vec x.2 = .ok v ∧ vec y.2 = .ok w ∧ theta ≤ cos w v := by
  obtain ⟨C, h1, h2, h3, _, h5⟩ := C170_selection cos vec theta L R X h
  have at' : ∀ k (hk : k < C.length), ∃ r v, L[C[k]]? = some r ∧ R[k]? = some r ∧ X[k]? = some v ∧ vec r.2 = .ok v := by
    intro k hk
    have hR : k < R.length := by rw [← h2.length_eq]; exact hk
    have hX : k < X.length := by rw [← h3.length_eq]; exact hR
    have e1 := List.Forall₂.get h2 hk hR
    have e2 := List.Forall₂.get h3 hR hX
    simp only [List.get_eq_getElem] at e1 e2
    exact ⟨R[k], X[k], e1, List.getElem?_eq_getElem hR, List.getElem?_eq_getElem hX, e2⟩
  have hl : X.length = C.length := by rw [← h3.length_eq, ← h2.length_eq]
  refine ⟨?_, ?_⟩
  · rw [List.pairwise_iff_getElem]
    intro i j hi hj hij
    obtain ⟨r, v, a1, _, a3, a4⟩ := at' i (by omega)
    obtain ⟨r', v', b1, _, b3, b4⟩ := at' j (by omega)
    have hlt := List.pairwise_iff_getElem.1 h1 i j (by omega) (by omega) hij
    have := (h5 _ r' v' b1 b4).1 (List.getElem_mem _) _ (List.getElem_mem (l := C) (n := i) (by omega)) hlt r v a1 a4
    rw [(List.getElem?_eq_some_iff.1 a3).2, (List.getElem?_eq_some_iff.1 b3).2]
    exact this
  · intro x hx hxR
    obtain ⟨p, hp, rfl⟩ := List.getElem_of_mem hx
    have hL : L[p]? = some L[p] := List.getElem?_eq_getElem hp
    obtain ⟨v, hv⟩ : ∃ v, vec (L[p]).2 = .ok v := step3Old_vec h _ (List.getElem_mem hp)
    have hpC : p ∉ C := by
      intro hpC
      obtain ⟨k, hk, e⟩ := List.getElem_of_mem hpC
      obtain ⟨r, _, a1, a2, _⟩ := at' k hk
      rw [e, hL] at a1
      cases a1
      exact hxR (List.mem_of_getElem? a2)
    have := mt (h5 p _ v hL hv).2 hpC
    push Not at this
    obtain ⟨q, hq, _, y, w, hy, hw, hle⟩ := this
    obtain ⟨k, hk, e⟩ := List.getElem_of_mem hq
    obtain ⟨r, _, a1, a2, _⟩ := at' k hk
    rw [e, hy] at a1
    cases a1
    exact ⟨y, List.mem_of_getElem? a2, v, w, hv, hw, hle⟩

/-- **C170**, when it returns: exactly when there is a cluster and every cluster has a vector. -/
theorem C170_returns (cos : V → V → K) (vec : List E → Except Err V) (theta : K) (L : List (K × List E)) :
    (∃ r, step3Old cos vec theta L = .ok r) ↔ L ≠ [] ∧ ∀ x ∈ L, ∃ v, vec x.2 = .ok v := by
  constructor
  · rintro ⟨r, h⟩
    refine ⟨?_, step3Old_vec h⟩
    rintro rfl
    simp [step3Old, pure, Except.pure] at h
    cases h
  · rintro ⟨hne, hv⟩
    obtain ⟨x0, hx0⟩ := List.exists_mem_of_ne_nil L hne
    have : Nonempty V := ⟨(hv x0 hx0).choose⟩
    choose! g hg using fun (x : K × List E) (hx : x ∈ L) => hv x hx
    unfold step3Old
    rw [Verif.Matrix.mapM_ok_of _ g L hg]
    refine ⟨_, if_neg ?_⟩
    simpa using hne

/-- Three clusters with the vectors 1, 2 and 1, two vectors being similar when equal: the third is left out. -/
example : step3Old (K := ℚ) (fun v w : Nat => if v = w then 1 else 0) (fun c => match c with | [] => .error .index | e :: _ => .ok e)
    (1 / 2) [(9, [1, 5]), (8, [2, 5]), (7, [1, 6])] = .ok ([(9, [1, 5]), (8, [2, 5])], [1, 2]) := by decide +kernel

end
end Verif.Cbc
