import Verif.Vocab.Frame
import Verif.Vocab.Props
import Mathlib.Algebra.Order.BigOperators.Group.Finset
import Mathlib.Algebra.BigOperators.Group.Finset.Piecewise
import Mathlib.Data.Finset.Max

/-!
# C133-C136: tables of a vocabulary, its printed form, coverage of the most frequent items, slices in steps
-/

namespace Verif.Vocab
open Verif.Py
set_option linter.unusedSectionVars false

variable {κ : Type} [LinearOrder κ]

/-! ### C133 -/

/-- The frequency that a table gives to an item: that of its last row. -/
def lastRow : List κ → List Int → κ → Option Int
  | i :: is, n :: ns, k => (lastRow is ns k).or (if i = k then some n else none)
  | _, _, _ => none

theorem get?_foldl_zip (is : List κ) (ns : List Int) (d : Dict κ Int) (k : κ) :
    Dict.get? ((is.zip ns).foldl (fun d p => Dict.set d p.1 p.2) d) k = (lastRow is ns k).or (Dict.get? d k) := by
  induction is generalizing ns d with
  | nil => simp [lastRow]
  | cons i is ih =>
    cases ns with
    | nil => simp [lastRow]
    | cons n ns =>
      rw [List.zip_cons_cons, List.foldl_cons, ih, Dict.get?_set, lastRow]
      cases lastRow is ns k with
      | some m => simp
      | none => by_cases h : i = k <;> simp [h]

theorem WF_dataframe {v : Vocab κ} (hv : v.freq.WF) : Dict.WF (dataframe v : Dict κ Int) := dataframe_keys_nodup hv

/-- **C133** (any table).  A vocabulary made from a table has for each item the frequency of its last row, and no other items;
a table without one of the columns is refused. -/
theorem C133_table (f : Frame κ) :
    (∀ is ns, f.item = some is → f.freq = some ns → ∃ v, construct (.frame f) = .ok v ∧ v.freq.WF ∧
      (∀ k, v.freq.get? k = lastRow is ns k) ∧ v.dflt = false ∧ (v.filter = true ↔ is ≠ [] ∧ ns ≠ [])) ∧
    (f.item = none ∨ f.freq = none → construct (.frame f) = .error .keyError) := by
  constructor
  · intro is ns hi hn
    refine ⟨mk' (Dict.ofPairs (is.zip ns)), by simp [construct, freqOfFrame, hi, hn, Except.map], Dict.WF_ofPairs _, ?_, rfl, ?_⟩
    · intro k
      have := get?_foldl_zip is ns [] k
      simpa [mk', Dict.ofPairs] using this
    · cases is with
      | nil => simp [mk', Dict.ofPairs]
      | cons i is =>
        cases ns with
        | nil => simp [mk', Dict.ofPairs]
        | cons n ns =>
          simp only [mk', decide_eq_true_eq, ne_eq, reduceCtorEq, not_false_eq_true, and_self, iff_true]
          have : i ∈ (Dict.ofPairs ((i :: is).zip (n :: ns))).keys := by
            rw [← Dict.get?_isSome_iff]
            have h := get?_foldl_zip (i :: is) (n :: ns) [] i
            simp only [Dict.ofPairs]
            rw [h, lastRow]
            cases lastRow is ns i <;> simp
          exact List.length_pos_of_mem this
  · intro h
    cases hi : f.item with
    | none => simp [construct, freqOfFrame, hi, Except.map]
    | some is =>
      rcases h with h | h
      · rw [hi] at h; cases h
      · simp [construct, freqOfFrame, hi, h, Except.map]

/-- **C133** (round trip).  A vocabulary made from the table of a vocabulary has the same items and frequencies, and its own
table is the same. -/
theorem C133_round_trip (v : Vocab κ) (hv : v.freq.WF) :
    ∃ w, construct (.frame (frameOf v)) = .ok w ∧ (∀ k, w.freq.get? k = v.freq.get? k) ∧ equal v w = true ∧
      dataframe w = dataframe v ∧ sumFreq w = sumFreq v ∧ len w = len v := by
  have hz : ((dataframe v).map Prod.fst).zip ((dataframe v).map Prod.snd) = dataframe v := by
    rw [List.zip_map', List.map_id'']
    intro x; rfl
  have hof : Dict.ofPairs (dataframe v) = dataframe v := ofPairs_eq_of_nodup _ (dataframe_keys_nodup hv)
  have hget : ∀ k, Dict.get? (dataframe v : Dict κ Int) k = v.freq.get? k := by
    intro k
    cases h : v.freq.get? k with
    | some n => exact Dict.get?_of_mem (WF_dataframe hv) ((dataframe_perm v).mem_iff.2 (Dict.mem_of_get? h))
    | none =>
      cases h' : Dict.get? (dataframe v : Dict κ Int) k with
      | none => rfl
      | some n =>
        rw [Dict.get?_of_mem hv ((dataframe_perm v).mem_iff.1 (Dict.mem_of_get? h'))] at h
        cases h
  refine ⟨mk' (dataframe v), ?_, hget, ?_, ?_, ?_, ?_⟩
  · simp [construct, freqOfFrame, frameOf, hz, hof, Except.map]
  · unfold equal
    rw [Bool.and_eq_true]
    refine ⟨?_, ?_⟩
    · simp only [mk', Dict.keys, List.length_map, (dataframe_perm v).length_eq, decide_true]
    · rw [List.all_eq_true]
      intro p hp
      exact decide_eq_true ((hget p.1).trans (Dict.get?_of_mem hv hp))
  · exact (C17_ranking v hv).2.2 (mk' (dataframe v)) (WF_dataframe hv) hget
  · exact ((dataframe_perm v).map Prod.snd).sum_eq
  · simp only [len, mk', Dict.keys, List.length_map, (dataframe_perm v).length_eq]

/-- **C133** (views).  `items` pairs `keys` with `values`, in the same order; the vocabulary is empty exactly if it has no items;
data of any other kind are refused. -/
theorem C133_views (v : Vocab κ) :
    items v = (keys v).zip (values v) ∧ (keys v).length = len v ∧ (values v).sum = sumFreq v ∧
      (isEmpty v = true ↔ ∀ k, contains v k = false) ∧ construct (.other : Data κ) = .error .notImplemented := by
  refine ⟨?_, rfl, rfl, ?_, rfl⟩
  · unfold items keys values Dict.keys Dict.values
    rw [List.zip_map', List.map_id'']
    intro x; rfl
  · unfold isEmpty
    rw [decide_eq_true_eq, List.length_eq_zero_iff]
    constructor
    · intro h k
      rw [← Bool.not_eq_true, contains, Dict.contains_iff, h]
      simp
    · intro h
      by_contra hne
      obtain ⟨k, hk⟩ := List.exists_mem_of_ne_nil _ hne
      have := h k
      rw [← Bool.not_eq_true, contains, Dict.contains_iff] at this
      exact this hk

/-- **C133** (other sources).  A vocabulary made from nothing is empty; one made from a dict has its items and frequencies; a
default dict stays one. -/
theorem C133_sources (d : Dict κ Int) :
    (∃ v, construct (.nothing : Data κ) = .ok v ∧ items v = [] ∧ v.filter = false ∧ v.dflt = false) ∧
    (∃ v, construct (.dict d) = .ok v ∧ items v = d ∧ v.dflt = false ∧ (v.filter = true ↔ d ≠ [])) ∧
    (∃ v, construct (.defaultdict d) = .ok v ∧ items v = d ∧ v.dflt = true ∧ (v.filter = true ↔ d ≠ [])) := by
  have hf : decide (0 < d.keys.length) = true ↔ d ≠ [] := by
    cases d <;> simp [Dict.keys]
  exact ⟨⟨_, rfl, rfl, rfl, rfl⟩, ⟨_, rfl, rfl, rfl, hf⟩, ⟨_, rfl, rfl, rfl, hf⟩⟩

example : construct (.frame ⟨some [1, 2, 1], some [5, 6, 7]⟩) = .ok (mk' ([(1, 7), (2, 6)] : Dict Nat Int)) ∧
    frameOf (mk' ([(2, 5), (1, 5), (9, 8)] : Dict Nat Int)) = ⟨some [9, 1, 2], some [8, 5, 5]⟩ := by
  constructor <;> rfl

/-! ### C134 -/

/-- **C134**.  A vocabulary of at most seven items is printed in full, in the order of insertion. -/
theorem C134_small (v : Vocab κ) (h : len v ≤ 7) : shown v = .all (items v) := by
  unfold len Dict.keys at h
  rw [List.length_map] at h
  unfold shown
  rw [if_pos h]
  rfl

/-- **C134**.  Of a larger one three pairs are printed first and three last, six different items with their frequencies: the first
in descending order and no other item is more frequent than any of them; the last in descending order and no other item is less
frequent than any of them. -/
theorem C134_large (v : Vocab κ) (hv : v.freq.WF) (h : 7 < len v) :
    ∃ top bottom mid, shown v = .ends top bottom ∧ top.length = 3 ∧ bottom.length = 3 ∧ (top ++ mid ++ bottom).Perm (items v) ∧
      ((top ++ bottom).map Prod.fst).Nodup ∧ (top ++ bottom).Pairwise (fun x y => y.2 ≤ x.2) ∧
      (∀ x ∈ top, ∀ y ∈ items v, y ∉ top → y.2 ≤ x.2) ∧ (∀ x ∈ bottom, ∀ y ∈ items v, y ∉ bottom → x.2 ≤ y.2) := by
  unfold len Dict.keys at h
  rw [List.length_map] at h
  have hperm := sortedByDesc_perm (Prod.snd) v.freq
  have hpw := sortedByDesc_pairwise (Prod.snd) v.freq
  have hsh : shown v = .ends ((sortedByDesc Prod.snd v.freq).take 3) (lastThree (sortedByDesc Prod.snd v.freq)) := by
    unfold shown
    rw [if_neg (by omega)]
  generalize hs : sortedByDesc Prod.snd v.freq = s at *
  have hlen : s.length = v.freq.length := hperm.length_eq
  have hsplit : s.take 3 ++ (s.drop 3).take (s.length - 6) ++ lastThree s = s := by
    unfold lastThree
    have : s.drop (s.length - 3) = (s.drop 3).drop (s.length - 6) := by
      rw [List.drop_drop]; congr 1; omega
    rw [this, List.append_assoc, List.take_append_drop, List.take_append_drop]
  refine ⟨s.take 3, lastThree s, (s.drop 3).take (s.length - 6), hsh, ?_, ?_, ?_, ?_, ?_, ?_, ?_⟩
  · rw [List.length_take]; omega
  · unfold lastThree; rw [List.length_drop]; omega
  · rw [hsplit]; exact hperm
  · have hn : (s.map Prod.fst).Nodup := (hperm.map Prod.fst).nodup_iff.2 hv
    have hsub : (s.take 3 ++ lastThree s).Sublist s := by
      conv => rhs; rw [← hsplit, List.append_assoc]
      exact List.Sublist.append (List.Sublist.refl _) (List.sublist_append_right _ _)
    exact (hsub.map Prod.fst).nodup hn
  · have hsub : (s.take 3 ++ lastThree s).Sublist s := by
      conv => rhs; rw [← hsplit, List.append_assoc]
      exact List.Sublist.append (List.Sublist.refl _) (List.sublist_append_right _ _)
    exact hpw.sublist hsub
  · intro x hx y hy hny
    rw [← hsplit, List.append_assoc, List.pairwise_append] at hpw
    refine hpw.2.2 x hx y ?_
    have : y ∈ s := hperm.mem_iff.2 hy
    rw [← hsplit, List.append_assoc, List.mem_append] at this
    exact this.resolve_left hny
  · intro x hx y hy hny
    rw [← hsplit, List.pairwise_append] at hpw
    refine hpw.2.2 y ?_ x hx
    have : y ∈ s := hperm.mem_iff.2 hy
    rw [← hsplit, List.mem_append] at this
    exact this.resolve_right hny

example : shown (mk' ([(1, 5), (2, 1), (3, 9), (4, 5), (5, 2), (6, 7), (7, 1), (8, 3)] : Dict Nat Int)) =
    .ends [(3, 9), (6, 7), (1, 5)] [(5, 2), (2, 1), (7, 1)] := by decide

/-! ### C135 -/

/-- The number of words of the corpus that given items cover. -/
def covers (v : Vocab κ) (l : List κ) : Int := (l.map (fun k => (v.freq.get? k).getD 0)).sum

/-- **C135**.  No other choice of as many items covers more than the `k` most frequent ones. -/
theorem C135_coverage (v : Vocab κ) (hv : v.freq.WF) (k : Nat) (l : List κ) (hl : l.Nodup)
    (hc : ∀ i ∈ l, contains v i = true) (hn : l.length = min k (len v)) :
    covers v l ≤ sumFreq (select1 v (.slice none (some (k : Int)))) := by
  obtain ⟨h1, h2, h3, -, -⟩ := C18_slice_top v hv k
  generalize ht : select1 v (.slice none (some (k : Int))) = top at *
  have wt : Dict.WF top.freq := by
    rw [← ht, select_slice_freq hv, pySlice_none_nat]
    exact ((List.take_sublist k _).map Prod.fst).nodup (dataframe_keys_nodup hv)
  have hsum : sumFreq top = covers v top.freq.keys := by
    unfold sumFreq covers
    rw [← keys_map_getD wt]
    congr 1
    apply List.map_congr_left
    intro i hi
    rw [h2 i ((Dict.contains_iff _ _).2 hi)]
  have hin : ∀ i, contains top i = true → contains v i = true := by
    intro i hi
    have := h2 i hi
    unfold contains Dict.contains at *
    rw [← this]; exact hi
  rw [hsum]
  unfold covers
  have e1 : ∀ (l : List κ) (hl : l.Nodup), (l.map (fun k => (v.freq.get? k).getD 0)).sum =
      ∑ k ∈ l.toFinset, (v.freq.get? k).getD 0 := by
    intro l hl
    rw [List.sum_toFinset _ hl]
  rw [e1 l hl, e1 _ wt]
  set S := l.toFinset with hS
  set T := (Dict.keys top.freq).toFinset with hT
  have hcard : (S \ T).card = (T \ S).card := by
    have a := Finset.card_sdiff_add_card_inter S T
    have b := Finset.card_sdiff_add_card_inter T S
    have c : S.card = T.card := by
      rw [hS, hT, List.toFinset_card_of_nodup hl, List.toFinset_card_of_nodup wt, hn]
      exact h1.symm
    rw [Finset.inter_comm T S] at b
    omega
  have hle : ∀ i ∈ S \ T, ∀ j ∈ T \ S, (v.freq.get? i).getD 0 ≤ (v.freq.get? j).getD 0 := by
    intro i hi j hj
    rw [Finset.mem_sdiff, hS, hT, List.mem_toFinset, List.mem_toFinset] at hi hj
    have hjt : contains top j = true := (Dict.contains_iff _ _).2 hj.1
    have hit : contains top i = false := by
      rw [← Bool.not_eq_true, contains, Dict.contains_iff]; exact hi.2
    obtain ⟨n, hn⟩ := Option.isSome_iff_exists.1 (show (v.freq.get? i).isSome = true from hc i hi.1)
    obtain ⟨m, hm⟩ := Option.isSome_iff_exists.1 (show (v.freq.get? j).isSome = true from hin j hjt)
    rw [hn, hm]
    exact h3 j i m n hjt hit hm hn
  have hmain : ∑ i ∈ S \ T, (v.freq.get? i).getD 0 ≤ ∑ i ∈ T \ S, (v.freq.get? i).getD 0 := by
    rcases (T \ S).eq_empty_or_nonempty with he | hne
    · rw [he, Finset.card_empty, Finset.card_eq_zero] at hcard
      rw [he, hcard]
    · obtain ⟨j, hj, hmin⟩ := Finset.exists_min_image (T \ S) (fun i => (v.freq.get? i).getD 0) hne
      calc ∑ i ∈ S \ T, (v.freq.get? i).getD 0 ≤ (S \ T).card • (v.freq.get? j).getD 0 :=
            Finset.sum_le_card_nsmul _ _ _ (fun i hi => hle i hi j hj)
        _ = (T \ S).card • (v.freq.get? j).getD 0 := by rw [hcard]
        _ ≤ ∑ i ∈ T \ S, (v.freq.get? i).getD 0 := Finset.card_nsmul_le_sum _ _ _ hmin
  have s1 := Finset.sum_inter_add_sum_sdiff S T (fun i => (v.freq.get? i).getD 0)
  have s2 := Finset.sum_inter_add_sum_sdiff T S (fun i => (v.freq.get? i).getD 0)
  rw [Finset.inter_comm T S] at s2
  omega

/-- If no frequency is negative, neither does any choice of fewer. -/
theorem C135_fewer (v : Vocab κ) (hv : v.freq.WF) (hpos : ∀ i n, v.freq.get? i = some n → 0 ≤ n) (k : Nat) (l : List κ)
    (hl : l.Nodup) (hc : ∀ i ∈ l, contains v i = true) (hn : l.length ≤ k) :
    covers v l ≤ sumFreq (select1 v (.slice none (some (k : Int)))) := by
  have hll : l.length ≤ len v := by
    have : l ⊆ v.freq.keys := fun i hi => (Dict.contains_iff _ _).1 (hc i hi)
    exact (hl.subperm this).length_le
  refine le_trans (C135_coverage v hv l.length l hl hc (by omega)) ?_
  have et : ∀ k : Nat, (select1 v (.slice none (some (k : Int)))).freq = (dataframe v).take k := by
    intro k
    rw [select_slice_freq hv, pySlice_none_nat]
  unfold sumFreq
  rw [et, et]
  have hsplit : (dataframe v).take k = (dataframe v).take l.length ++ ((dataframe v).drop l.length).take (k - l.length) := by
    rw [← List.take_add]; congr 1; omega
  rw [hsplit]
  unfold Dict.values
  rw [List.map_append, List.sum_append]
  have : 0 ≤ ((((dataframe v).drop l.length).take (k - l.length)).map Prod.snd).sum := by
    apply List.sum_nonneg
    intro n hn
    obtain ⟨p, hp, rfl⟩ := List.mem_map.1 hn
    have : p ∈ v.freq := (dataframe_perm v).mem_iff.1 (List.mem_of_mem_drop (List.mem_of_mem_take hp))
    exact hpos p.1 p.2 (Dict.get?_of_mem hv this)
  omega

example : covers (mk' ([(2, 5), (1, 5), (9, 8)] : Dict Nat Int)) [1, 2] = 10 ∧
    sumFreq (select1 (mk' ([(2, 5), (1, 5), (9, 8)] : Dict Nat Int)) (.slice none (some 2))) = 13 := by
  constructor <;> decide

/-! ### C136 -/

theorem dataframe_sorted {l : List (κ × Int)}
    (hp : l.Pairwise (fun x y => y.2 < x.2 ∨ (x.2 = y.2 ∧ x.1 ≤ y.1))) : dataframe (mk' l) = l := by
  refine eq_of_perm_of_pairwise ?_ (dataframe_perm (mk' l)) (dataframe_pairwise (mk' l)) hp
  rintro ⟨a, m⟩ _ ⟨b, n⟩ _ h1 h2
  simp only at h1 h2
  rcases h1 with h1 | ⟨h1, h1'⟩
  · rcases h2 with h2 | ⟨h2, _⟩
    · omega
    · omega
  · rcases h2 with h2 | ⟨_, h2'⟩
    · omega
    · rw [le_antisymm h1' h2', h1]

/-- A slice of a slice is the slice of the ranking. -/
theorem slice_slice {v : Vocab κ} (hv : v.freq.WF) (a b a' b' : Option Int) :
    (select1 (select1 v (.slice a b)) (.slice a' b')).freq = pySlice (pySlice (dataframe v) a b) a' b' := by
  have hsub := pySlice_sublist (dataframe v) a b
  have hwf : Dict.WF (select1 v (.slice a b)).freq := by
    rw [select_slice_freq hv]
    exact (hsub.map Prod.fst).nodup (dataframe_keys_nodup hv)
  rw [select_slice_freq hwf]
  congr 1
  have : select1 v (.slice a b) = mk' (pySlice (dataframe v) a b) := by
    show mk' (Dict.ofPairs _) = _
    rw [ofPairs_eq_of_nodup _ ((hsub.map Prod.fst).nodup (dataframe_keys_nodup hv))]
  rw [this]
  exact dataframe_sorted ((dataframe_pairwise v).sublist hsub)

/-- **C136** (steps).  Taking the first `m` and of these the first `k` gives the first `min m k`; dropping `m` and then `k` drops
`m + k`; and `v[m:][:k]` is `v[:m + k][m:]`. -/
theorem C136_steps (v : Vocab κ) (hv : v.freq.WF) (m k : Nat) :
    (select1 (select1 v (.slice none (some (m : Int)))) (.slice none (some (k : Int)))).freq =
      (select1 v (.slice none (some ((min m k : Nat) : Int)))).freq ∧
    (select1 (select1 v (.slice (some (m : Int)) none)) (.slice (some (k : Int)) none)).freq =
      (select1 v (.slice (some ((m + k : Nat) : Int)) none)).freq ∧
    (select1 (select1 v (.slice (some (m : Int)) none)) (.slice none (some (k : Int)))).freq =
      (select1 (select1 v (.slice none (some ((m + k : Nat) : Int)))) (.slice (some (m : Int)) none)).freq := by
  refine ⟨?_, ?_, ?_⟩
  · rw [slice_slice hv, select_slice_freq hv, pySlice_none_nat, pySlice_none_nat, pySlice_none_nat, List.take_take,
      Nat.min_comm]
  · rw [slice_slice hv, select_slice_freq hv, pySlice_nat_none, pySlice_nat_none, pySlice_nat_none, List.drop_drop]
  · rw [slice_slice hv, slice_slice hv, pySlice_nat_none, pySlice_none_nat, pySlice_none_nat, pySlice_nat_none, List.drop_take]
    congr 1
    omega

/-- **C136** (totals).  The total frequencies of the two parts of a cut add up, for any place of the cut. -/
theorem C136_totals (v : Vocab κ) (hv : v.freq.WF) (k : Nat) :
    sumFreq (select1 v (.slice none (some (k : Int)))) + sumFreq (select1 v (.slice (some (k : Int)) none)) = sumFreq v ∧
    len (select1 v (.slice none (some (k : Int)))) + len (select1 v (.slice (some (k : Int)) none)) = len v := by
  unfold sumFreq len
  rw [select_slice_freq hv, select_slice_freq hv, pySlice_none_nat, pySlice_nat_none]
  unfold Dict.values Dict.keys
  constructor
  · rw [← List.sum_append, ← List.map_append, List.take_append_drop]
    exact ((dataframe_perm v).map Prod.snd).sum_eq
  · rw [List.length_map, List.length_map, ← List.length_append, List.take_append_drop, List.length_map,
      (dataframe_perm v).length_eq]

/-- **C136** (everything).  `v[:]` has all items. -/
theorem C136_all (v : Vocab κ) (hv : v.freq.WF) (i : κ) : (select1 v (.slice none none)).freq.get? i = v.freq.get? i := by
  have h := C133_round_trip v hv
  have hs : (select1 v (.slice none none)).freq = dataframe v := by
    rw [select_slice_freq hv]
    unfold pySlice
    simp
  rw [hs]
  cases h : v.freq.get? i with
  | some n => exact Dict.get?_of_mem (WF_dataframe hv) ((dataframe_perm v).mem_iff.2 (Dict.mem_of_get? h))
  | none =>
    cases h' : Dict.get? (dataframe v : Dict κ Int) i with
    | none => rfl
    | some n =>
      rw [Dict.get?_of_mem hv ((dataframe_perm v).mem_iff.1 (Dict.mem_of_get? h'))] at h
      cases h

example : (select1 (select1 (mk' ([(2, 5), (1, 5), (9, 8), (4, 1)] : Dict Nat Int)) (.slice (some 1) none)) (.slice none (some 2))).freq =
    [(1, 5), (2, 5)] := by decide

end Verif.Vocab
