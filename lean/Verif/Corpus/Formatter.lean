import Verif.Vocab.Lemmas

/-!
# Corpus files and the line formatter, and the per-file frequency list

A corpus file is its list of lines (already stripped, as every reader does `line = line.strip()`).  The regular
expressions of `CorpusFormatter` are not modelled: the formatter is a parameter that says which lines match
and which strings they give.
-/

namespace Verif.Corpus
open Verif.Py Verif.Vocab

/-- `CorpusFormatter`: `/repo/nephosem/core/terms.py:571-687`.  `matchLine` is `match_line`, `isSep` is
`separator_line_machine`, `getType` is `get_type`, `getColloc` is `get_colloc`. -/
structure Formatter (ℓ μ κ : Type) where
  matchLine : ℓ → Option μ
  isSep : ℓ → Bool
  getType : μ → κ
  getColloc : μ → κ

variable {ℓ μ κ : Type} [LinearOrder κ]

/-- One line of `ItemFreqHandler.update_one_file`: `/repo/nephosem/models/typetoken.py:158-166`. -/
def itemFreqLine (f : Formatter ℓ μ κ) (v : Vocab κ) (line : ℓ) : Vocab κ :=
  match f.matchLine line with
  | none => v
  | some m => increment v (f.getType m) 1

/-- `ItemFreqHandler._do_process_job`: a fresh `Vocab()` is updated with every line and its dict returned:
`/repo/nephosem/models/typetoken.py:126-166`. -/
def itemFreqFile (f : Formatter ℓ μ κ) (file : List ℓ) : Dict κ Int :=
  (file.foldl (itemFreqLine f) Vocab.empty).freq

/-- The merge loop of `ItemFreqHandler._process_results` for one result:
`/repo/nephosem/models/typetoken.py:177-180`. -/
def addFreqs (vocab res : Dict κ Int) : Dict κ Int :=
  res.foldl (fun d p =>
    let d' := if d.contains p.1 then d else d.set p.1 0
    d'.set p.1 ((d'.get? p.1).getD 0 + p.2)) vocab

/-- `ItemFreqHandler._process_results` over the results read, and the `Vocab(vocab)` of `build_item_freq`:
`/repo/nephosem/models/typetoken.py:168-181`, `101`. -/
def mergeFreqs (results : List (Dict κ Int)) : Vocab κ := mk' (results.foldl addFreqs [])

/-! ### Specification -/

/-- Number of lines of a file that match with type `k`. -/
def occurrences (f : Formatter ℓ μ κ) (k : κ) (file : List ℓ) : Nat :=
  file.countP (fun line => match f.matchLine line with | some m => decide (f.getType m = k) | none => false)

/-! ### Lemmas -/

theorem decide_pos_add (a b : Nat) : (decide (0 < a) || decide (0 < b)) = decide (0 < a + b) := by
  rw [Bool.eq_iff_iff]; simp only [Bool.or_eq_true, decide_eq_true_eq]; omega

theorem cast_sum (l : List Nat) : ((l.sum : Nat) : Int) = (l.map (fun n : Nat => (n : Int))).sum := by
  induction l with
  | nil => rfl
  | cons a l ih => rw [List.sum_cons, List.map_cons, List.sum_cons, ← ih]; push_cast; rfl

theorem itemFreqLine_get? (f : Formatter ℓ μ κ) (v : Vocab κ) (line : ℓ) (k : κ) :
    ((itemFreqLine f v line).freq.get? k).getD 0 = (v.freq.get? k).getD 0 + occurrences f k [line] ∧
    ((itemFreqLine f v line).freq.get? k).isSome =
      ((v.freq.get? k).isSome || decide (0 < occurrences f k [line])) := by
  unfold itemFreqLine occurrences
  cases h : f.matchLine line with
  | none => simp [h]
  | some m =>
    simp only [get?_increment]
    by_cases hk : f.getType m = k
    · simp [h, hk]
    · simp [h, hk]

theorem occurrences_append (f : Formatter ℓ μ κ) (k : κ) (a b : List ℓ) :
    occurrences f k (a ++ b) = occurrences f k a + occurrences f k b := by
  simp [occurrences]

theorem itemFreq_fold (f : Formatter ℓ μ κ) (file : List ℓ) (v : Vocab κ) (k : κ) :
    ((file.foldl (itemFreqLine f) v).freq.get? k).getD 0 = (v.freq.get? k).getD 0 + occurrences f k file ∧
    ((file.foldl (itemFreqLine f) v).freq.get? k).isSome =
      ((v.freq.get? k).isSome || decide (0 < occurrences f k file)) := by
  induction file generalizing v with
  | nil => simp [occurrences]
  | cons l file ih =>
    have h1 := itemFreqLine_get? f v l k
    have h2 := ih (itemFreqLine f v l)
    have e := occurrences_append f k [l] file
    rw [List.singleton_append] at e
    rw [List.foldl_cons, e]
    refine ⟨by rw [h2.1, h1.1]; push_cast; omega, ?_⟩
    rw [h2.2, h1.2, Bool.or_assoc, decide_pos_add]

theorem itemFreq_WF (f : Formatter ℓ μ κ) (file : List ℓ) (v : Vocab κ) (hv : v.freq.WF) :
    (file.foldl (itemFreqLine f) v).freq.WF := by
  induction file generalizing v with
  | nil => exact hv
  | cons l file ih =>
    refine ih _ ?_
    unfold itemFreqLine
    split
    · exact hv
    · exact WF_increment hv _ _

theorem itemFreqFile_WF (f : Formatter ℓ μ κ) (file : List ℓ) : (itemFreqFile f file).WF :=
  itemFreq_WF f file _ Dict.WF_nil

/-- Each type's frequency in the list of one file. -/
theorem itemFreqFile_get? (f : Formatter ℓ μ κ) (file : List ℓ) (k : κ) :
    (itemFreqFile f file).get? k =
      if 0 < occurrences f k file then some (occurrences f k file : Int) else none := by
  have h := itemFreq_fold f file Vocab.empty k
  simp only [Vocab.empty, mk', Dict.get?_nil, Option.getD_none, zero_add, Option.isSome_none,
    Bool.false_or] at h
  unfold itemFreqFile
  simp only [Vocab.empty, mk']
  split
  · next hp =>
    rw [decide_eq_true hp] at h
    obtain ⟨n, hn⟩ := Option.isSome_iff_exists.1 h.2
    rw [hn] at h ⊢
    simpa using h.1
  · next hp =>
    rw [decide_eq_false hp] at h
    simpa using h.2

theorem addFreqs_step (d : Dict κ Int) (a : κ) (n : Int) (k : κ) :
    Dict.get? ((if d.contains a then d else d.set a 0).set a
      (((if d.contains a then d else d.set a 0).get? a).getD 0 + n)) k =
      if a = k then some ((d.get? k).getD 0 + n) else d.get? k := by
  by_cases hc : d.contains a = true
  · simp only [hc, if_true, Dict.get?_set]
    by_cases h : a = k
    · subst h; simp
    · simp [h]
  · have hn : d.get? a = none := by
      rw [Dict.get?_eq_none_iff]; exact fun h => hc ((Dict.contains_iff _ _).2 h)
    simp only [hc, Dict.get?_set]
    by_cases h : a = k
    · subst h; simp [hn, Dict.get?_set]
    · simp [h, Dict.get?_set]

theorem addFreqs_get? (d res : Dict κ Int) (hr : res.WF) (k : κ) :
    (addFreqs d res).get? k = match d.get? k, res.get? k with
      | none, none => none
      | x, y => some (x.getD 0 + y.getD 0) := by
  unfold addFreqs
  induction res generalizing d with
  | nil => cases h : d.get? k <;> simp [h]
  | cons p res ih =>
    obtain ⟨a, n⟩ := p
    have hw : Dict.WF res := by
      simp only [Dict.WF, Dict.keys_cons, List.nodup_cons] at hr; exact hr.2
    have ha : a ∉ Dict.keys res := by
      simp only [Dict.WF, Dict.keys_cons, List.nodup_cons] at hr; exact hr.1
    rw [List.foldl_cons, ih _ hw]
    simp only [addFreqs_step, Dict.get?_cons]
    by_cases h : a = k
    · subst h
      rw [(Dict.get?_eq_none_iff _ _).2 ha]
      cases d.get? a <;> simp
    · simp [h]

theorem addFreqs_WF {d res : Dict κ Int} (hd : d.WF) : (addFreqs d res).WF := by
  unfold addFreqs
  induction res generalizing d with
  | nil => exact hd
  | cons p res ih =>
    rw [List.foldl_cons]
    apply ih
    apply Dict.WF_set
    split
    · exact hd
    · exact Dict.WF_set hd _ _

theorem mergeFreqs_fold (rs : List (Dict κ Int)) (hrs : ∀ r ∈ rs, r.WF) (d : Dict κ Int) (k : κ) :
    ((rs.foldl addFreqs d).get? k).getD 0 = (d.get? k).getD 0 + (rs.map (fun r => (r.get? k).getD 0)).sum ∧
    ((rs.foldl addFreqs d).get? k).isSome = ((d.get? k).isSome || rs.any (fun r => (r.get? k).isSome)) := by
  induction rs generalizing d with
  | nil => simp
  | cons r rs ih =>
    have := ih (fun x hx => hrs x (by simp [hx])) (addFreqs d r)
    rw [List.foldl_cons, List.map_cons, List.sum_cons, List.any_cons, this.1, this.2,
      addFreqs_get? d r (hrs r (by simp))]
    cases h1 : d.get? k <;> cases h2 : r.get? k <;> simp [add_assoc]

theorem mergeFreqs_WF (rs : List (Dict κ Int)) : (mergeFreqs rs).freq.WF := by
  have : ∀ (rs : List (Dict κ Int)) (d : Dict κ Int), d.WF → (rs.foldl addFreqs d).WF := by
    intro rs
    induction rs with
    | nil => intro d hd; exact hd
    | cons r rs ih => intro d hd; exact ih _ (addFreqs_WF hd)
  exact this rs [] Dict.WF_nil

/-- The merged list of the lists of any files. -/
theorem mergeFreqs_files (f : Formatter ℓ μ κ) (files : List (List ℓ)) (k : κ) :
    (mergeFreqs (files.map (itemFreqFile f))).freq.get? k =
      if 0 < (files.map (occurrences f k)).sum then some ((files.map (occurrences f k)).sum : Int) else none := by
  have h := mergeFreqs_fold (files.map (itemFreqFile f))
    (fun r hr => by obtain ⟨x, _, rfl⟩ := List.mem_map.1 hr; exact itemFreqFile_WF f x) [] k
  simp only [List.map_map, Dict.get?_nil, Option.getD_none, zero_add, Option.isSome_none, Bool.false_or,
    List.any_map, Function.comp_def, itemFreqFile_get?] at h
  have e1 : ∀ n : Nat, (if 0 < n then some (n : Int) else none).getD 0 = n := by
    intro n; split
    · rfl
    · next h => simp only [Option.getD_none]; omega
  have e2 : ∀ n : Nat, (if 0 < n then some (n : Int) else none).isSome = decide (0 < n) := by
    intro n; split <;> simp [*]
  simp only [e1, e2] at h
  have e3 : (files.map (fun x => (occurrences f k x : Int))).sum = ((files.map (occurrences f k)).sum : Int) := by
    rw [cast_sum, List.map_map]; rfl
  have e4 : files.any (fun x => decide (0 < occurrences f k x)) = decide (0 < (files.map (occurrences f k)).sum) := by
    clear h e3
    induction files with
    | nil => simp
    | cons a l ih =>
      rw [List.any_cons, ih, List.map_cons, List.sum_cons, decide_pos_add]
  rw [e3, e4] at h
  show (List.foldl addFreqs [] (files.map (itemFreqFile f))).get? k = _
  split
  · next hp =>
    rw [decide_eq_true hp] at h
    obtain ⟨n, hn⟩ := Option.isSome_iff_exists.1 h.2
    rw [hn] at h ⊢
    simpa using h.1
  · next hp =>
    rw [decide_eq_false hp] at h
    simpa using h.2

end Verif.Corpus
