import Verif.Front.Vocab
import Verif.Vocab.Lemmas

/-!
# Further methods of vocabularies: properties
-/

set_option linter.unusedSectionVars false

namespace Verif.Front

open Verif.Py
open Verif.Vocab (Vocab)
open Verif.Vocab.Plain (Str)

/-! ## C99: selecting the items of a word -/

/-- The word of an item is the text before its last slash, or the item itself if it has no slash. -/
def WordOf (item word : Str) : Prop :=
  (∃ pos, '/' ∉ pos ∧ item = word ++ '/' :: pos) ∨ ('/' ∉ item ∧ item = word)

theorem dropWhile_ne (c : Char) (t r : Str) (h : c ∉ t) :
    (t ++ c :: r).dropWhile (fun x => x != c) = c :: r := by
  induction t with
  | nil => simp
  | cons x xs ih =>
    simp only [List.mem_cons, not_or] at h
    rw [List.cons_append, List.dropWhile_cons, if_pos (by simpa using Ne.symm h.1)]
    exact ih h.2

theorem split_last (c : Char) (s : Str) (h : c ∈ s) : ∃ w t, s = w ++ c :: t ∧ c ∉ t := by
  induction s with
  | nil => simp at h
  | cons x xs ih =>
    by_cases hx : c ∈ xs
    · obtain ⟨w, t, rfl, ht⟩ := ih hx
      exact ⟨x :: w, t, rfl, ht⟩
    · simp only [List.mem_cons, hx, or_false] at h
      exact ⟨[], xs, by rw [h]; rfl, hx⟩

theorem beforeLast_append (c : Char) (w t : Str) (h : c ∉ t) : beforeLast c (w ++ c :: t) = w := by
  rw [beforeLast, if_pos (by simp)]
  have := dropWhile_ne c t.reverse w.reverse (by simpa using h)
  simp only [List.reverse_append, List.reverse_cons, List.append_assoc, List.singleton_append] at this ⊢
  rw [this]
  simp

theorem wordOf_iff (item word : Str) : WordOf item word ↔ word = beforeLast '/' item := by
  by_cases hs : '/' ∈ item
  · obtain ⟨w, t, rfl, ht⟩ := split_last '/' item hs
    rw [beforeLast_append _ _ _ ht]
    constructor
    · rintro (⟨pos, hp, h⟩ | ⟨h, _⟩)
      · rw [← beforeLast_append '/' word pos hp, ← h, beforeLast_append _ _ _ ht]
      · exact absurd hs h
    · rintro rfl
      exact Or.inl ⟨t, ht, rfl⟩
  · rw [beforeLast, if_neg hs]
    constructor
    · rintro (⟨pos, _, rfl⟩ | ⟨_, rfl⟩)
      · simp at hs
      · rfl
    · rintro rfl
      exact Or.inr ⟨hs, rfl⟩

theorem select_fold (word : Str) (ps : Dict Str Int) (hw : Dict.WF ps) (d : Dict Str Int) (i : Str) :
    Dict.get? (ps.foldl (fun d p => if word = beforeLast '/' p.1 then Dict.set d p.1 p.2 else d) d) i =
      if i ∈ Dict.keys ps ∧ word = beforeLast '/' i then Dict.get? ps i else Dict.get? d i := by
  induction ps generalizing d with
  | nil => simp
  | cons p ps ih =>
    have hw' : Dict.WF ps := by
      rw [Dict.WF, Dict.keys_cons, List.nodup_cons] at hw; exact hw.2
    have hp : p.1 ∉ Dict.keys ps := by
      rw [Dict.WF, Dict.keys_cons, List.nodup_cons] at hw; exact hw.1
    rw [List.foldl_cons, ih hw', Dict.keys_cons, Dict.get?_cons]
    by_cases hi : p.1 = i
    · subst hi
      rw [if_neg (fun h => hp h.1), if_pos rfl]
      by_cases hb : word = beforeLast '/' p.1
      · rw [if_pos hb, if_pos ⟨by simp, hb⟩, Dict.get?_set, if_pos rfl]
      · rw [if_neg hb, if_neg (fun h => hb h.2)]
    · rw [if_neg hi]
      have hm : i ∈ p.1 :: Dict.keys ps ↔ i ∈ Dict.keys ps := by
        simp [Ne.symm hi]
      simp only [hm]
      by_cases hc : i ∈ Dict.keys ps ∧ word = beforeLast '/' i
      · rw [if_pos hc, if_pos hc]
      · rw [if_neg hc, if_neg hc]
        split_ifs
        · rw [Dict.get?_set, if_neg hi]
        · rfl

/-- Selecting by a word gives exactly the items of that word, with their frequencies. -/
theorem C99_select (v : Vocab Str) (hv : Dict.WF v.freq) (word item : Str) (n : Int) :
    Dict.get? (selectItems v word).freq item = some n ↔ Dict.get? v.freq item = some n ∧ WordOf item word := by
  rw [wordOf_iff, selectItems, Vocab.mk']
  refine (by rw [select_fold word v.freq hv [] item] : _ ↔ _).trans ?_
  rw [Dict.get?_nil]
  by_cases h : item ∈ Dict.keys v.freq ∧ word = beforeLast '/' item
  · rw [if_pos h]; simp [h.2]
  · rw [if_neg h]
    constructor
    · intro h'; exact absurd h' (by simp)
    · rintro ⟨h1, h2⟩
      exact absurd ⟨(Dict.get?_isSome_iff _ _).1 (by rw [h1]; rfl), h2⟩ h

/-- A word with a slash of its own, and another word that only starts alike. -/
example : (selectItems (Vocab.mk' [("km/h/noun".toList, 3), ("km/noun".toList, 5), ("km/verb".toList, 1)])
    "km".toList).freq = [("km/noun".toList, 5), ("km/verb".toList, 1)] := by decide +kernel

/-! ## C100: items that match a pattern -/

theorem mapM_cells (re : Str → Bool) (rows : List (Str × Int)) :
    rows.mapM (regexCell re "item".toList) = .ok (rows.map (fun p => re p.1)) := by
  induction rows with
  | nil => rfl
  | cons p ps ih =>
    rw [List.mapM_cons, ih]
    simp [regexCell, pure, Except.pure, bind, Except.bind]

theorem zip_filter (re : Str → Bool) (rows : List (Str × Int)) :
    ((rows.zip (rows.map (fun p => re p.1))).filter (·.2)).map (·.1.1) =
      (rows.filter (fun p => re p.1)).map Prod.fst := by
  induction rows with
  | nil => rfl
  | cons p ps ih =>
    rw [List.map_cons, List.zip_cons_cons, List.filter_cons, List.filter_cons]
    cases h : re p.1
    · simpa using ih
    · simpa using ih

/-- Matching gives the items of the vocabulary that match, each once, from the most frequent to the least frequent
and alphabetically among equals.  Missing from the full claim: the column `freq`, see `C100_freq`. -/
theorem C100_match_partial (re : Str → Bool) (v : Vocab Str) (hv : Dict.WF v.freq) :
    ∃ l, matchItems re "item".toList v = .ok l ∧ l.Nodup ∧
      (∀ i, i ∈ l ↔ (∃ n, Dict.get? v.freq i = some n) ∧ re i = true) ∧
      l.Pairwise (fun i j => ∀ n k, Dict.get? v.freq i = some n → Dict.get? v.freq j = some k →
        k < n ∨ (k = n ∧ i < j)) := by
  have hperm := Vocab.dataframe_perm v
  have hnd := Vocab.dataframe_keys_nodup hv
  refine ⟨((Vocab.dataframe v).filter (fun p => re p.1)).map Prod.fst, ?_, ?_, fun i => ?_, ?_⟩
  · rw [matchItems, mapM_cells]
    show Except.ok _ = _
    rw [zip_filter]
  · exact hnd.sublist (List.Sublist.map _ List.filter_sublist)
  · simp only [List.mem_map, List.mem_filter]
    constructor
    · rintro ⟨p, ⟨hp, hr⟩, rfl⟩
      exact ⟨⟨p.2, Dict.get?_of_mem hv (hperm.mem_iff.1 hp)⟩, hr⟩
    · rintro ⟨⟨n, hn⟩, hr⟩
      exact ⟨(i, n), ⟨hperm.mem_iff.2 (Dict.mem_of_get? hn), hr⟩, rfl⟩
  · rw [List.pairwise_map]
    refine List.Pairwise.imp_of_mem ?_ (((Vocab.dataframe_pairwise v).and (List.pairwise_map.1 hnd)).filter _)
    rintro p q hp hq ⟨h, hne⟩ n k hn hk
    have hp' := Dict.get?_of_mem hv (hperm.mem_iff.1 (List.mem_of_mem_filter hp))
    have hq' := Dict.get?_of_mem hv (hperm.mem_iff.1 (List.mem_of_mem_filter hq))
    rw [hn, Option.some.injEq] at hp'
    rw [hk, Option.some.injEq] at hq'
    subst hp' hq'
    rcases h with h | ⟨h1, h2⟩
    · exact Or.inl h
    · exact Or.inr ⟨h1.symm, lt_of_le_of_ne h2 hne⟩

/-- Matching the frequencies, which the documentation offers, is always refused unless the vocabulary is empty. -/
theorem C100_freq (re : Str → Bool) (v : Vocab Str) (h : v.freq ≠ []) :
    matchItems re "freq".toList v = .error .type := by
  have hne : Vocab.dataframe v ≠ [] := fun h0 => h (List.Perm.eq_nil (h0 ▸ (Vocab.dataframe_perm v).symm))
  rw [matchItems]
  cases hd : Vocab.dataframe v with
  | nil => exact absurd hd hne
  | cons p ps => rfl

/-- A pattern for nouns: two of three items. -/
example : matchItems (fun s => s.contains 'n') "item".toList
    (Vocab.mk' [("go/verb".toList, 9), ("b/noun".toList, 2), ("a/noun".toList, 2)]) =
      .ok ["a/noun".toList, "b/noun".toList] := by decide +kernel

/-! ## C101: attributes and copies -/

/-- No name is ever reported as unknown: apart from `freq`, the answer for a name that is not an attribute is `None`. -/
theorem C101_attribute (defined : Str → Bool) (name : Str) :
    ∃ a, getAttribute defined name = .ok a ∧
      (defined name = false → name ≠ "freq".toList → a = .none) := by
  unfold getAttribute
  cases h : defined name
  · by_cases hn : name = "freq".toList
    · exact ⟨.self, by simp [hn], fun _ h => absurd hn h⟩
    · exact ⟨.none, by rw [if_neg (by simp), if_neg hn], fun _ _ => rfl⟩
  · exact ⟨.defined, by simp, fun h => nomatch h⟩

/-- The claim that an unknown attribute is an error is false for every unknown name. -/
theorem C101_false (defined : Str → Bool) (name : Str) : getAttribute defined name ≠ .error () := by
  obtain ⟨a, h, _⟩ := C101_attribute defined name
  rw [h]; exact fun h => nomatch h

/-- For the same reason the `deepcopy` function of the standard library refuses every vocabulary. -/
theorem C101_deepcopy (defined : Str → Bool) (h : defined "__setstate__".toList = false) (v : Vocab Str) :
    copyDeepcopy defined v = .error .type := by
  have : getAttribute defined "__setstate__".toList = .ok .none := by
    unfold getAttribute
    rw [h, if_neg (by simp), if_neg (by decide)]
  rw [copyDeepcopy, this]
  rfl

/-- An object that reports unknown names is copied. -/
theorem C101_usual {α : Type} (a : α) (setstate : α → Except VErr α) :
    reconstruct (.error ()) a setstate = .ok a := rfl

/-- The names of the class and of the object: `__setstate__` is not among them. -/
example : (fun n : Str => decide (n ∈ ["freq_dict".toList, "raw_vocab".toList, "FILTERPRESENT".toList,
    "encoding".toList, "dataframe".toList, "keys".toList])) "__setstate__".toList = false := by decide +kernel

/-- The method `deepcopy` of the vocabulary itself works: the copy has the same items and frequencies, and answers reads, also of
items that it does not have, as the original does. -/
theorem C101_method (v : Vocab Str) (i : Str) : Dict.get? (Vocab.deepcopy v).freq i = Dict.get? v.freq i ∧
    (Vocab.getStr (Vocab.deepcopy v) i).1 = (Vocab.getStr v i).1 ∧ (Vocab.getStr (Vocab.deepcopy v) i).2.freq = (Vocab.getStr v i).2.freq := by
  refine ⟨rfl, ?_⟩
  unfold Vocab.getStr Vocab.deepcopy Vocab.mk'
  simp only
  cases Dict.get? v.freq i with
  | some n => exact ⟨rfl, rfl⟩
  | none => cases hd : v.dflt <;> exact ⟨rfl, rfl⟩

/-! ## C102: selecting appearances -/

/-- What the documentation promises: for every word a set of as many appearances as asked for, or all of them. -/
def Promised (v : Vocab Str) (n : Nat) (words : List Str) (r : Dict Str (List Nat)) : Prop :=
  ∀ w ∈ words, ∃ sel, Dict.get? r w = some sel ∧ sel.Nodup ∧ (∀ k ∈ sel, 1 ≤ k ∧ (k : Int) ≤ (Dict.get? v.freq w).getD 0) ∧
    sel.length = min n ((Dict.get? v.freq w).getD 0).toNat

/-- The promise can be met, by the first appearances. -/
theorem C102_meetable (v : Vocab Str) (n : Nat) (words : List Str) : ∃ r, Promised v n words r := by
  refine ⟨words.foldl (fun d w => Dict.set d w ((List.range (min n ((Dict.get? v.freq w).getD 0).toNat)).map (· + 1))) [],
    fun w hw => ?_⟩
  refine ⟨(List.range (min n ((Dict.get? v.freq w).getD 0).toNat)).map (· + 1), ?_, ?_, ?_, by simp⟩
  · suffices h : ∀ (ws : List Str) (d : Dict Str (List Nat)), (w ∈ ws ∨ Dict.get? d w =
        some ((List.range (min n ((Dict.get? v.freq w).getD 0).toNat)).map (· + 1))) →
        Dict.get? (ws.foldl (fun d w => Dict.set d w
          ((List.range (min n ((Dict.get? v.freq w).getD 0).toNat)).map (· + 1))) d) w =
        some ((List.range (min n ((Dict.get? v.freq w).getD 0).toNat)).map (· + 1)) from h words [] (Or.inl hw)
    intro ws
    induction ws with
    | nil => rintro d (h | h); exact absurd h (by simp); exact h
    | cons x xs ih =>
      intro d h
      rw [List.foldl_cons]
      apply ih
      by_cases hx : x = w
      · subst hx; right; rw [Dict.get?_set, if_pos rfl]
      · rcases h with h | h
        · left; simpa [Ne.symm hx] using h
        · right; rw [Dict.get?_set, if_neg hx]; exact h
  · exact List.nodup_range.map (fun a b h => Nat.add_right_cancel h)
  · intro k hk
    simp only [List.mem_map, List.mem_range] at hk
    obtain ⟨a, ha, rfl⟩ := hk
    omega

/-- Yet selecting appearances fails for every list of words that is not empty. -/
theorem C102_never (words : List Str) : selectSubsets words = .error .name ↔ words ≠ [] := by
  cases words <;> simp [selectSubsets]

/-- So the promise is not kept. -/
theorem C102_false : ¬ ∀ (words : List Str), ∃ r, selectSubsets words = .ok r := by
  intro h
  obtain ⟨r, hr⟩ := h ["appel/noun".toList]
  exact absurd hr (by simp [selectSubsets])

/-! ## C103: files of selected types -/

/-- The file lists exactly the given types, each once, with its frequency in the vocabulary or zero. -/
theorem C103_types (v : Vocab Str) (types : List Str) :
    Dict.WF (makeTypeFile v types) ∧
    ∀ t n, Dict.get? (makeTypeFile v types) t = some n ↔ t ∈ types ∧ n = (Dict.get? v.freq t).getD 0 := by
  have hval : ∀ t, freqOrZero v t = (Dict.get? v.freq t).getD 0 := by
    intro t; unfold freqOrZero; cases Dict.get? v.freq t <;> rfl
  suffices h : ∀ (ts : List Str) (d : Dict Str Int), Dict.WF d →
      Dict.WF (ts.foldl (fun d t => Dict.set d t (freqOrZero v t)) d) ∧
      ∀ t, Dict.get? (ts.foldl (fun d t => Dict.set d t (freqOrZero v t)) d) t =
        if t ∈ ts then some ((Dict.get? v.freq t).getD 0) else Dict.get? d t by
    obtain ⟨h1, h2⟩ := h types [] Dict.WF_nil
    refine ⟨h1, fun t n => ?_⟩
    rw [makeTypeFile, h2 t]
    by_cases ht : t ∈ types
    · rw [if_pos ht]; simp [ht, eq_comm]
    · rw [if_neg ht]; simp [ht]
  intro ts
  induction ts with
  | nil => intro d hd; exact ⟨hd, fun t => by simp⟩
  | cons x xs ih =>
    intro d hd
    rw [List.foldl_cons]
    obtain ⟨h1, h2⟩ := ih _ (Dict.WF_set hd x (freqOrZero v x))
    refine ⟨h1, fun t => ?_⟩
    rw [h2 t]
    by_cases ht : t ∈ xs
    · simp [ht]
    · by_cases hx : x = t
      · subst hx; simp only [ht, if_false, List.mem_cons, true_or, if_true, Dict.get?_set, hval]
      · simp [ht, Ne.symm hx, Dict.get?_set, hx]

/-- A known and an unknown type. -/
example : makeTypeFile (Vocab.mk' [("a".toList, 4), ("b".toList, 2)]) ["c".toList, "a".toList] =
    [("c".toList, 0), ("a".toList, 4)] := by decide +kernel

end Verif.Front
