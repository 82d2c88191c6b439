import Mathlib.Data.List.Nodup

/-!
# Python dictionaries

A Python `dict` (CPython >= 3.7) is an insertion-ordered finite map.  The model is an association list in
insertion order.  `set` overwrites in place when the key exists and appends otherwise, which is what
`d[k] = v` does to the iteration order.  This is the container used by `/repo/nephosem/core/vocab.py:67-72`
(`freq_dict`), `/repo/nephosem/models/typetoken.py:172-181` and many others.
-/

namespace Verif.Py

/-- Insertion-ordered association list standing for a Python `dict`. -/
abbrev Dict (κ ν : Type) := List (κ × ν)

namespace Dict
set_option linter.unusedSectionVars false

variable {κ ν : Type} [DecidableEq κ]

/-- `d.get(k)`; also the value read by `d[k]` when the key exists. -/
def get? : Dict κ ν → κ → Option ν
  | [], _ => none
  | (k', v) :: d, k => if k' = k then some v else get? d k

/-- `d[k] = v`. -/
def set : Dict κ ν → κ → ν → Dict κ ν
  | [], k, v => [(k, v)]
  | (k', v') :: d, k, v => if k' = k then (k', v) :: d else (k', v') :: set d k v

/-- `list(d.keys())`. -/
def keys (d : Dict κ ν) : List κ := d.map Prod.fst

/-- `list(d.values())`. -/
def values (d : Dict κ ν) : List ν := d.map Prod.snd

/-- `k in d`. -/
def contains (d : Dict κ ν) (k : κ) : Bool := (get? d k).isSome

/-- The dict built by inserting the pairs one after the other (`{k: v for k, v in pairs}`). -/
def ofPairs (ps : List (κ × ν)) : Dict κ ν := ps.foldl (fun d p => set d p.1 p.2) []

/-- `d.update(e)`. -/
def update (d e : Dict κ ν) : Dict κ ν := e.foldl (fun d p => set d p.1 p.2) d

/-- Representation invariant: no key occurs twice. -/
def WF (d : Dict κ ν) : Prop := (keys d).Nodup

@[simp] theorem get?_nil (k : κ) : get? ([] : Dict κ ν) k = none := rfl

theorem get?_cons (p : κ × ν) (d : Dict κ ν) (k : κ) :
    get? (p :: d) k = if p.1 = k then some p.2 else get? d k := rfl

theorem get?_set (d : Dict κ ν) (k k' : κ) (v : ν) :
    get? (set d k v) k' = if k = k' then some v else get? d k' := by
  induction d with
  | nil => simp [set, get?]
  | cons p d ih =>
    obtain ⟨a, b⟩ := p
    unfold set
    by_cases h : a = k
    · subst h; simp only [if_true, get?_cons]; split <;> rfl
    · simp only [if_neg h, get?_cons, ih]
      by_cases h2 : a = k'
      · subst h2; simp [Ne.symm h]
      · simp [h2]

theorem get?_isSome_iff (d : Dict κ ν) (k : κ) : (get? d k).isSome ↔ k ∈ keys d := by
  induction d with
  | nil => simp [keys]
  | cons p d ih =>
    simp only [get?_cons, keys, List.map_cons, List.mem_cons] at *
    by_cases h : p.1 = k
    · simp [h]
    · simp [h, ih, Ne.symm h]

theorem get?_eq_none_iff (d : Dict κ ν) (k : κ) : get? d k = none ↔ k ∉ keys d := by
  rw [← get?_isSome_iff]; cases get? d k <;> simp

theorem contains_iff (d : Dict κ ν) (k : κ) : contains d k = true ↔ k ∈ keys d :=
  get?_isSome_iff d k

theorem get?_of_mem {d : Dict κ ν} (h : WF d) {k : κ} {v : ν} (hm : (k, v) ∈ d) :
    get? d k = some v := by
  induction d with
  | nil => simp at hm
  | cons p d ih =>
    simp only [WF, keys, List.map_cons, List.nodup_cons] at h
    rw [get?_cons]
    rcases List.mem_cons.1 hm with rfl | hm
    · simp
    · have : p.1 ≠ k := by
        rintro rfl; exact h.1 (List.mem_map.2 ⟨(p.1, v), hm, rfl⟩)
      rw [if_neg this]; exact ih h.2 hm

theorem mem_of_get? {d : Dict κ ν} {k : κ} {v : ν} (h : get? d k = some v) : (k, v) ∈ d := by
  induction d with
  | nil => simp at h
  | cons p d ih =>
    rw [get?_cons] at h
    split at h
    · next e => cases h; subst e; simp
    · exact List.mem_cons_of_mem _ (ih h)

theorem get?_eq_some_iff {d : Dict κ ν} (h : WF d) (k : κ) (v : ν) :
    get? d k = some v ↔ (k, v) ∈ d := ⟨mem_of_get?, get?_of_mem h⟩

@[simp] theorem keys_nil : keys ([] : Dict κ ν) = [] := rfl
@[simp] theorem keys_cons (p : κ × ν) (d : Dict κ ν) : keys (p :: d) = p.1 :: keys d := rfl

theorem keys_set (d : Dict κ ν) (k : κ) (v : ν) :
    keys (set d k v) = if k ∈ keys d then keys d else keys d ++ [k] := by
  induction d with
  | nil => simp [set]
  | cons p d ih =>
    obtain ⟨a, b⟩ := p
    by_cases h : a = k
    · simp [set, h]
    · simp only [set, if_neg h, keys_cons, ih, List.mem_cons, Ne.symm h, false_or]
      by_cases hk : k ∈ keys d <;> simp [hk]

theorem WF_nil : WF ([] : Dict κ ν) := by simp [WF, keys]

theorem WF_set {d : Dict κ ν} (h : WF d) (k : κ) (v : ν) : WF (set d k v) := by
  unfold WF at *
  rw [keys_set]
  split
  · exact h
  · next hk => rw [List.nodup_append]; exact ⟨h, by simp, by
      rintro a ha b hb rfl
      rw [List.mem_singleton] at hb
      exact hk (hb ▸ ha)⟩

theorem WF_update {d : Dict κ ν} (h : WF d) (e : Dict κ ν) : WF (update d e) := by
  unfold update
  induction e generalizing d with
  | nil => exact h
  | cons p e ih => exact ih (WF_set h _ _)

theorem WF_ofPairs (ps : List (κ × ν)) : WF (ofPairs ps) := WF_update WF_nil ps

theorem get?_update {d e : Dict κ ν} (he : WF e) (k : κ) :
    get? (update d e) k = (get? e k).or (get? d k) := by
  unfold update
  induction e generalizing d with
  | nil => simp
  | cons p e ih =>
    simp only [WF, keys, List.map_cons, List.nodup_cons] at he
    rw [List.foldl_cons, ih he.2, get?_cons, get?_set]
    by_cases h : p.1 = k
    · subst h
      have : get? e p.1 = none := (get?_eq_none_iff _ _).2 he.1
      simp [this]
    · simp [h]

theorem keys_filter_sublist (d : Dict κ ν) (q : κ × ν → Bool) :
    (keys (d.filter q)).Sublist (keys d) := (List.filter_sublist).map _

theorem WF_filter {d : Dict κ ν} (h : WF d) (q : κ × ν → Bool) : WF (d.filter q) :=
  List.Nodup.sublist (keys_filter_sublist d q) h

theorem get?_filter {d : Dict κ ν} (h : WF d) (q : κ × ν → Bool) (k : κ) :
    get? (d.filter q) k = (get? d k).filter (fun v => q (k, v)) := by
  induction d with
  | nil => simp
  | cons p d ih =>
    obtain ⟨a, b⟩ := p
    simp only [WF, keys, List.map_cons, List.nodup_cons] at h
    have hi := ih h.2
    rw [List.filter_cons, get?_cons]
    by_cases hk : a = k
    · subst hk
      have hn : get? d a = none := (get?_eq_none_iff _ _).2 h.1
      by_cases hq : q (a, b) = true
      · simp [hq, get?_cons, Option.filter]
      · rw [if_neg hq, hi, hn]; simp [Option.filter, hq]
    · by_cases hq : q (a, b) = true
      · simp [hq, get?_cons, hk, hi]
      · simp [hq, hk, hi]

/-- Two well-formed dicts with the same lookups hold the same pairs. -/
theorem perm_of_get?_eq {d e : Dict κ ν} (hd : WF d) (he : WF e)
    (h : ∀ k, get? d k = get? e k) : d.Perm e := by
  have nd : d.Nodup := List.Nodup.of_map _ hd
  have ne : e.Nodup := List.Nodup.of_map _ he
  rw [List.perm_ext_iff_of_nodup nd ne]
  rintro ⟨k, v⟩
  rw [← get?_eq_some_iff hd, ← get?_eq_some_iff he, h]

theorem get?_perm {d e : Dict κ ν} (hd : WF d) (h : d.Perm e) (k : κ) : get? d k = get? e k := by
  have he : WF e := (h.map Prod.fst).nodup_iff.1 hd
  cases hk : get? d k with
  | some v =>
    exact ((get?_eq_some_iff he k v).2 (h.mem_iff.1 ((get?_eq_some_iff hd k v).1 hk))).symm
  | none =>
    rw [get?_eq_none_iff] at hk
    refine ((get?_eq_none_iff _ _).2 ?_).symm
    exact fun hc => hk ((h.map Prod.fst).mem_iff.2 hc)

end Dict
end Verif.Py
