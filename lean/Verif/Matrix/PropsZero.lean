import Verif.Matrix.Zero
import Verif.Py.Sort

/-!
# Claim C178: what is left after dropping the zero rows or columns
-/

set_option linter.unusedSectionVars false

namespace Verif.Matrix
open Verif.Py

variable {κ ν : Type} [LinearOrder κ]

theorem uniqueIds_mem (l : List Nat) (i : Nat) : i ∈ uniqueIds l ↔ i ∈ l := by
  unfold uniqueIds
  rw [(sortedBy_perm id l.dedup).mem_iff, List.mem_dedup]

theorem uniqueIds_lt (l : List Nat) : (uniqueIds l).Pairwise (· < ·) := by
  have h1 : (uniqueIds l).Pairwise (fun a b => a ≤ b) := sortedBy_pairwise id l.dedup
  have h2 : (uniqueIds l).Nodup := (sortedBy_perm id l.dedup).nodup_iff.2 (List.nodup_dedup l)
  exact (h1.and h2).imp (fun h => Nat.lt_of_le_of_ne h.1 h.2)

/-- Renaming the keys of a dict by a map that keeps different keys apart. -/
theorem get?_rename {α β : Type} [DecidableEq α] [DecidableEq β] (d : Dict α ν) (f : α → β)
    (hf : ∀ x ∈ Dict.keys d, ∀ y, f x = f y → x = y) (k : α) :
    Dict.get? (d.map (fun e => (f e.1, e.2)) : Dict β ν) (f k) = Dict.get? d k := by
  induction d with
  | nil => rfl
  | cons p d ih =>
    have ih' := ih (fun x hx => hf x (by simp [Dict.keys_cons, hx]))
    rw [List.map_cons, Dict.get?_cons, Dict.get?_cons, ih']
    by_cases h : p.1 = k
    · simp [h]
    · have : f p.1 ≠ f k := fun e => h (hf p.1 (by simp [Dict.keys_cons]) k e)
      simp [h, this]

/-- The stored entry after the numbers of the rows have been replaced by their places. -/
theorem stored_places (d : Dict (Nat × Nat) ν) (nz : List Nat) (hn : nz.Nodup)
    (hm : ∀ e ∈ d, e.1.1 ∈ nz) (a j : Nat) :
    Dict.get? (d.map (fun e => ((nz.idxOf e.1.1, e.1.2), e.2)) : Dict (Nat × Nat) ν) (a, j)
      = nz[a]?.bind (fun i => Dict.get? d (i, j)) := by
  by_cases ha : a < nz.length
  · rw [List.getElem?_eq_getElem ha, Option.bind_some]
    have hk := get?_rename d (fun p : Nat × Nat => (nz.idxOf p.1, p.2)) (by
      intro x hx y hxy
      obtain ⟨e, he, rfl⟩ := List.mem_map.1 hx
      have h1 : nz.idxOf e.1.1 = nz.idxOf y.1 := congrArg Prod.fst hxy
      have h2 : e.1.2 = y.2 := (Prod.mk.inj hxy).2
      exact Prod.ext ((List.idxOf_inj (hm e he)).1 h1) h2) (nz[a], j)
    simp only [hn.idxOf_getElem] at hk
    exact hk
  · rw [List.getElem?_eq_none (by omega), Option.bind_none, Dict.get?_eq_none_iff]
    intro hmem
    obtain ⟨e, he, hek⟩ := List.mem_map.1 hmem
    obtain ⟨e', he', rfl⟩ := List.mem_map.1 he
    have h1 : nz.idxOf e'.1.1 = a := congrArg Prod.fst hek
    have h2 := List.idxOf_lt_length_of_mem (hm e' he')
    omega

theorem stored_places_col (d : Dict (Nat × Nat) ν) (nz : List Nat) (hn : nz.Nodup)
    (hm : ∀ e ∈ d, e.1.2 ∈ nz) (i b : Nat) :
    Dict.get? (d.map (fun e => ((e.1.1, nz.idxOf e.1.2), e.2)) : Dict (Nat × Nat) ν) (i, b)
      = nz[b]?.bind (fun j => Dict.get? d (i, j)) := by
  by_cases ha : b < nz.length
  · rw [List.getElem?_eq_getElem ha, Option.bind_some]
    have hk := get?_rename d (fun p : Nat × Nat => (p.1, nz.idxOf p.2)) (by
      intro x hx y hxy
      obtain ⟨e, he, rfl⟩ := List.mem_map.1 hx
      have h1 : e.1.1 = y.1 := (Prod.mk.inj hxy).1
      have h2 : nz.idxOf e.1.2 = nz.idxOf y.2 := congrArg Prod.snd hxy
      exact Prod.ext h1 ((List.idxOf_inj (hm e he)).1 h2)) (i, nz[b])
    simp only [hn.idxOf_getElem] at hk
    exact hk
  · rw [List.getElem?_eq_none (by omega), Option.bind_none, Dict.get?_eq_none_iff]
    intro hmem
    obtain ⟨e, he, hek⟩ := List.mem_map.1 hmem
    obtain ⟨e', he', rfl⟩ := List.mem_map.1 he
    have h1 : nz.idxOf e'.1.2 = b := congrArg Prod.snd hek
    have h2 := List.idxOf_lt_length_of_mem (hm e' he')
    omega

/-- **C178, exact outcome** (rows): only a matrix in coordinate format gets an answer.  The answer has the rows with a stored
entry, in their order, with unchanged columns. -/
theorem C178_rows (s r : Sp ν) :
    dropZeroRows s = .ok r → s.fmt = .coo ∧ r.fmt = .csr ∧ r.nc = s.nc ∧
      ∃ nz : List Nat, nz.Pairwise (· < ·) ∧ (∀ i, i ∈ nz ↔ ∃ j, (s.stored i j).isSome) ∧ r.nr = nz.length ∧
        ∀ a j, r.stored a j = nz[a]?.bind (fun i => s.stored i j) := by
  intro h
  unfold dropZeroRows at h
  split at h
  · rename_i hf
    simp only [Except.ok.injEq] at h
    subst h
    have hlt := uniqueIds_lt (s.data.map (fun e => e.1.1))
    refine ⟨hf, rfl, rfl, _, hlt, ?_, rfl, ?_⟩
    · intro i
      rw [uniqueIds_mem]
      constructor
      · intro hi
        obtain ⟨e, he, rfl⟩ := List.mem_map.1 hi
        exact ⟨e.1.2, (Dict.get?_isSome_iff _ _).2 (List.mem_map.2 ⟨e, he, rfl⟩)⟩
      · rintro ⟨j, hj⟩
        obtain ⟨e, he, hk⟩ := List.mem_map.1 ((Dict.get?_isSome_iff _ _).1 hj)
        exact List.mem_map.2 ⟨e, he, by rw [hk]⟩
    · intro a j
      exact stored_places s.data _ (hlt.imp (fun h => Nat.ne_of_lt h))
        (fun e he => (uniqueIds_mem _ _).2 (List.mem_map.2 ⟨e, he, rfl⟩)) a j
  · exact nomatch h

/-- **C178, exact outcome** (columns). -/
theorem C178_cols (s r : Sp ν) :
    dropZeroCols s = .ok r → s.fmt = .coo ∧ r.fmt = .csr ∧ r.nr = s.nr ∧
      ∃ nz : List Nat, nz.Pairwise (· < ·) ∧ (∀ j, j ∈ nz ↔ ∃ i, (s.stored i j).isSome) ∧ r.nc = nz.length ∧
        ∀ i b, r.stored i b = nz[b]?.bind (fun j => s.stored i j) := by
  intro h
  unfold dropZeroCols at h
  split at h
  · rename_i hf
    simp only [Except.ok.injEq] at h
    subst h
    have hlt := uniqueIds_lt (s.data.map (fun e => e.1.2))
    refine ⟨hf, rfl, rfl, _, hlt, ?_, rfl, ?_⟩
    · intro i
      rw [uniqueIds_mem]
      constructor
      · intro hi
        obtain ⟨e, he, rfl⟩ := List.mem_map.1 hi
        exact ⟨e.1.1, (Dict.get?_isSome_iff _ _).2 (List.mem_map.2 ⟨e, he, rfl⟩)⟩
      · rintro ⟨j, hj⟩
        obtain ⟨e, he, hk⟩ := List.mem_map.1 ((Dict.get?_isSome_iff _ _).1 hj)
        exact List.mem_map.2 ⟨e, he, by rw [hk]⟩
    · intro a j
      exact stored_places_col s.data _ (hlt.imp (fun h => Nat.ne_of_lt h))
        (fun e he => (uniqueIds_mem _ _).2 (List.mem_map.2 ⟨e, he, rfl⟩)) a j
  · exact nomatch h

/-- **C178, which calls answer**: exactly those on a matrix in coordinate format; all others raise `AttributeError`. -/
theorem C178_when (s : Sp ν) :
    (s.fmt = .coo → (∃ r, dropZeroRows s = .ok r) ∧ ∃ r, dropZeroCols s = .ok r) ∧
    (s.fmt ≠ .coo → dropZeroRows s = .error .attributeError ∧ dropZeroCols s = .error .attributeError) := by
  unfold dropZeroRows dropZeroCols
  constructor
  · intro h
    rw [if_pos h, if_pos h]
    exact ⟨⟨_, rfl⟩, ⟨_, rfl⟩⟩
  · intro h
    rw [if_neg h, if_neg h]
    exact ⟨rfl, rfl⟩

/-- **C178_partial.** On a matrix in coordinate format without stored zeros, `drop_zero_rows` keeps exactly the rows with a
non-zero value, in their order and with all their values, and `drop_zero_cols` does the same for columns.
Missing: the other formats (an exception) and stored zeros (their rows stay). -/
theorem C178_partial [Zero ν] (s : Sp ν) (hf : s.fmt = .coo) (hz : ∀ i j v, s.stored i j = some v → v ≠ 0) :
    (∃ (r : Sp ν) (nz : List Nat), dropZeroRows s = .ok r ∧ nz.Pairwise (· < ·) ∧ (∀ i, i ∈ nz ↔ ∃ j, s.val i j ≠ 0) ∧
      r.nr = nz.length ∧ r.nc = s.nc ∧ ∀ a (h : a < nz.length) j, r.val a j = s.val nz[a] j) ∧
    (∃ (r : Sp ν) (nz : List Nat), dropZeroCols s = .ok r ∧ nz.Pairwise (· < ·) ∧ (∀ j, j ∈ nz ↔ ∃ i, s.val i j ≠ 0) ∧
      r.nr = s.nr ∧ r.nc = nz.length ∧ ∀ b (h : b < nz.length) i, r.val i b = s.val i nz[b]) := by
  have hv : ∀ i j, (s.stored i j).isSome ↔ s.val i j ≠ 0 := by
    intro i j
    unfold Sp.val
    cases h : s.stored i j with
    | none => simp
    | some v => simpa using hz i j v h
  obtain ⟨⟨r, hr⟩, ⟨c, hc⟩⟩ := (C178_when s).1 hf
  obtain ⟨-, -, h3, nz, h4, h5, h6, h7⟩ := C178_rows s r hr
  obtain ⟨-, -, g3, nz', g4, g5, g6, g7⟩ := C178_cols s c hc
  refine ⟨⟨r, nz, hr, h4, fun i => ?_, h6, h3, fun a h j => ?_⟩, ⟨c, nz', hc, g4, fun i => ?_, g3, g6, fun a h j => ?_⟩⟩
  · rw [h5]; exact exists_congr (fun j => hv i j)
  · unfold Sp.val; rw [h7, List.getElem?_eq_getElem h]; rfl
  · rw [g5]; exact exists_congr (fun j => hv j i)
  · unfold Sp.val; rw [g7, List.getElem?_eq_getElem h]; rfl

/-- A matrix in coordinate format: row 1 and column 0 are empty. -/
def zeroEx : Sp Int := ⟨.coo, 3, 3, [((2, 1), 5), ((0, 2), 7), ((2, 2), 1)]⟩

example : zeroEx.fmt = .coo ∧ (∀ i j v, zeroEx.stored i j = some v → v ≠ 0) ∧
    dropZeroRows zeroEx = .ok ⟨.csr, 2, 3, [((1, 1), 5), ((0, 2), 7), ((1, 2), 1)]⟩ ∧
    dropZeroCols zeroEx = .ok ⟨.csr, 3, 2, [((2, 0), 5), ((0, 1), 7), ((2, 1), 1)]⟩ := by
  refine ⟨rfl, ?_, by decide +kernel, by decide +kernel⟩
  intro i j v h
  have := Dict.mem_of_get? h
  simp [zeroEx] at this
  omega

/-- **C178 is false in general**: the same matrix in row format raises an exception, a row of stored zeros is kept, and the method of
a matrix with names answers `None`. -/
theorem C178_false :
    dropZeroRows { zeroEx with fmt := .csr } = .error .attributeError ∧
    (∃ (s r : Sp Int), s.WF ∧ (∀ j, s.val 0 j = 0) ∧ dropZeroRows s = .ok r ∧ r.nr = s.nr) ∧
    ∀ m : Mtx κ ν, m.dropZeroRows = none := by
  refine ⟨rfl, ⟨⟨.coo, 1, 1, [((0, 0), 0)]⟩, ⟨.csr, 1, 1, [((0, 0), 0)]⟩, ⟨by unfold Dict.WF; decide, by decide⟩, ?_, by decide +kernel, rfl⟩, fun _ => rfl⟩
  intro j
  unfold Sp.val Sp.stored
  rw [Dict.get?_cons]
  split <;> rfl

end Verif.Matrix
