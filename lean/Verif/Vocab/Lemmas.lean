import Verif.Vocab.Model
import Mathlib.Algebra.BigOperators.Group.List.Basic
import Mathlib.Algebra.Order.Group.Int

/-! Helper lemmas about the vocabulary model. -/

namespace Verif.Vocab
open Verif.Py

variable {κ : Type} [LinearOrder κ]

theorem keys_map_getD {d : Dict κ Int} (h : d.WF) :
    d.keys.map (fun k => (d.get? k).getD 0) = d.values := by
  unfold Dict.keys Dict.values
  rw [List.map_map]
  apply List.map_congr_left
  rintro ⟨k, v⟩ hm
  simp [Dict.get?_of_mem h hm]

theorem sum_eq_of_support {d : Dict κ Int} (h : d.WF) {S : List κ} (hS : S.Nodup)
    (hm : ∀ k, k ∈ S ↔ (d.get? k).isSome) :
    d.values.sum = (S.map (fun k => (d.get? k).getD 0)).sum ∧ d.keys.length = S.length := by
  have hp : S.Perm d.keys := by
    rw [List.perm_ext_iff_of_nodup hS h]
    intro k; rw [hm, Dict.get?_isSome_iff]
  refine ⟨?_, hp.length_eq.symm⟩
  rw [← keys_map_getD h]
  exact (hp.map _).sum_eq.symm

theorem get?_increment (v : Vocab κ) (k : κ) (n : Int) (k' : κ) :
    (increment v k n).freq.get? k' =
      if k = k' then some ((v.freq.get? k).getD 0 + n) else v.freq.get? k' := by
  unfold increment
  cases h : v.freq.get? k <;> simp [Dict.get?_set]

theorem WF_increment {v : Vocab κ} (h : v.freq.WF) (k : κ) (n : Int) :
    (increment v k n).freq.WF := by
  unfold increment
  split <;> exact Dict.WF_set h _ _

@[simp] theorem filter_increment (v : Vocab κ) (k : κ) (n : Int) :
    (increment v k n).filter = v.filter := by
  unfold increment; split <;> rfl

theorem values_set_sum (d : Dict κ Int) (h : d.WF) (k : κ) (n : Int) :
    (d.set k n).values.sum = d.values.sum - (d.get? k).getD 0 + n := by
  induction d with
  | nil => simp [Dict.set, Dict.values]
  | cons p d ih =>
    obtain ⟨a, b⟩ := p
    have hd : Dict.WF d := by
      simp only [Dict.WF, Dict.keys_cons, List.nodup_cons] at h; exact h.2
    by_cases hk : a = k
    · subst hk; simp only [Dict.set, if_true, Dict.values, List.map_cons, List.sum_cons, Dict.get?_cons,
        Option.getD_some]; omega
    · have := ih hd
      simp only [Dict.set, if_neg hk, Dict.values, List.map_cons, List.sum_cons, Dict.get?_cons] at *
      omega

theorem sumFreq_increment {v : Vocab κ} (h : v.freq.WF) (k : κ) (n : Int) :
    sumFreq (increment v k n) = sumFreq v + n := by
  unfold sumFreq increment
  cases hk : v.freq.get? k with
  | some m => simp only [values_set_sum _ h, hk, Option.getD_some]; omega
  | none => simp only [values_set_sum _ h, hk, Option.getD_none]; omega

theorem dataframe_perm (v : Vocab κ) : (dataframe v).Perm v.freq :=
  (sortedByDesc_perm _ _).trans (sortedBy_perm _ _)

theorem dataframe_pairwise (v : Vocab κ) :
    (dataframe v).Pairwise (fun x y => y.2 < x.2 ∨ (x.2 = y.2 ∧ x.1 ≤ y.1)) :=
  sortedByDesc_sortedBy_pairwise Prod.snd Prod.fst v.freq

theorem ofPairs_eq_of_nodup (l : List (κ × Int)) (h : (l.map Prod.fst).Nodup) :
    Dict.ofPairs l = l := by
  suffices H : ∀ (acc l : List (κ × Int)), ((acc ++ l).map Prod.fst).Nodup →
      l.foldl (fun d p => Dict.set d p.1 p.2) acc = acc ++ l by
    simpa [Dict.ofPairs] using H [] l (by simpa using h)
  clear h l
  intro acc l h
  induction l generalizing acc with
  | nil => simp
  | cons p l ih =>
    have hp : p.1 ∉ Dict.keys acc := by
      simp only [List.map_append, List.map_cons] at h
      have := (List.nodup_append.1 h).2.2
      intro hc
      exact this p.1 hc p.1 (by simp) rfl
    have hs : Dict.set acc p.1 p.2 = acc ++ [p] := by
      clear h ih
      induction acc with
      | nil => simp [Dict.set]
      | cons q acc ih2 =>
        simp only [Dict.keys_cons, List.mem_cons, not_or] at hp
        rw [Dict.set, if_neg (Ne.symm hp.1), ih2 hp.2]; rfl
    rw [List.foldl_cons, hs, ih (acc ++ [p]) (by simpa using h)]
    simp

theorem ofPairs_eq_of_nodup' (l : List (κ × Int)) (h : (l.map Prod.fst).Nodup) :
    l.foldl (fun d p => Dict.set d p.1 p.2) [] = l := ofPairs_eq_of_nodup l h

/-- Python slicing of a list is a contiguous part of it. -/
theorem pySlice_sublist {α : Type} (xs : List α) (a b : Option Int) :
    (pySlice xs a b).Sublist xs :=
  (List.drop_sublist _ _).trans (List.take_sublist _ _)

theorem pySlice_none_nat {α : Type} (xs : List α) (k : Nat) :
    pySlice xs none (some (k : Int)) = xs.take k := by
  unfold pySlice
  simp only [Option.map_none, Option.getD_none, Option.map_some, Option.getD_some, List.drop_zero]
  rw [if_neg (by omega)]
  rcases le_total k xs.length with h | h
  · congr 1; omega
  · rw [List.take_of_length_le (by omega), List.take_of_length_le h]

theorem pySlice_nat_none {α : Type} (xs : List α) (k : Nat) :
    pySlice xs (some (k : Int)) none = xs.drop k := by
  unfold pySlice
  simp only [Option.map_none, Option.getD_none, Option.map_some, Option.getD_some]
  rw [if_neg (by omega), List.take_of_length_le (by omega)]
  rcases le_total k xs.length with h | h
  · congr 1; omega
  · rw [List.drop_of_length_le (by omega), List.drop_of_length_le h]

theorem dataframe_keys_nodup {v : Vocab κ} (h : v.freq.WF) :
    ((dataframe v).map Prod.fst).Nodup :=
  ((dataframe_perm v).map Prod.fst).nodup_iff.2 h

theorem select_slice_freq {v : Vocab κ} (h : v.freq.WF) (a b : Option Int) :
    (select1 v (.slice a b)).freq = pySlice (dataframe v) a b := by
  show Dict.ofPairs _ = _
  exact ofPairs_eq_of_nodup _ (((pySlice_sublist _ a b).map _).nodup (dataframe_keys_nodup h))

end Verif.Vocab
