import Verif.Front.Queries
import Verif.Vocab.PlainLemmas
import Mathlib.Data.List.Induction
import Mathlib.Data.List.TakeWhile

/-!
# Word queries: properties
-/

set_option linter.unusedSectionVars false

namespace Verif.Front

open Verif.Py
open Verif.Vocab.Plain (Str strip lines isSpace isBreak)

/-! ## Specification -/

/-- `core` is `raw` without the white space around it. -/
def Trimmed (raw core : Str) : Prop :=
  ∃ a b, raw = a ++ core ++ b ∧ (∀ c ∈ a, isSpace c = true) ∧ (∀ c ∈ b, isSpace c = true) ∧
    (∀ c ∈ core.head?, isSpace c = false) ∧ (∀ c ∈ core.getLast?, isSpace c = false)

/-- A field `corpus:word` with exactly one colon; white space around both parts is dropped. -/
def Entry (field corpus word : Str) : Prop :=
  ∃ l r, field = l ++ ':' :: r ∧ ':' ∉ l ∧ ':' ∉ r ∧ Trimmed l corpus ∧ Trimmed r word

/-- The entries of the fields of a line, in order, leaving out the fields that are not entries. -/
inductive Entries : List Str → List (Str × Str) → Prop
  | nil : Entries [] []
  | skip {f fs es} : (∀ c w, ¬ Entry f c w) → Entries fs es → Entries (f :: fs) es
  | take {f fs c w es} : Entry f c w → Entries fs es → Entries (f :: fs) ((c, w) :: es)

/-- `w` is the word of the last entry for the corpus `c`. -/
def LastFor (es : List (Str × Str)) (c w : Str) : Prop :=
  ∃ pre post, es = pre ++ (c, w) :: post ∧ c ∉ post.map Prod.fst

/-- The dictionary a user expects for a line with the entries `es`. -/
structure TableOf (key : Str) (es : List (Str × Str)) (d : Dict Str (Option Str)) : Prop where
  corpus : ∀ c w, c ≠ key → (Dict.get? d c = some w ↔ ∃ s, w = some s ∧ LastFor es c s)
  explicit : ∀ w, LastFor es key w → Dict.get? d key = some (some w)
  first : key ∉ es.map Prod.fst → Dict.get? d key = some (es.head?.map Prod.snd)

/-- What one line of a query file stands for. -/
inductive Stands (key : Str) : Str → Option Query → Prop
  | blank {raw} : Trimmed raw [] → Stands key raw none
  | comment {raw s} : Trimmed raw ('#' :: s) → Stands key raw none
  | plain {raw core} : Trimmed raw core → core ≠ [] → core.head? ≠ some '#' → '\t' ∉ core →
      Stands key raw (some (.plain core))
  | table {raw fs es d} : Trimmed raw (Items.join '\t' fs) → (Items.join '\t' fs).head? ≠ some '#' →
      (∀ f ∈ fs, '\t' ∉ f) → 2 ≤ fs.length → Entries fs es → TableOf key es d → Stands key raw (some (.table d))

/-! ## Stripping -/

theorem dropWhile_spaces (a s : Str) (ha : ∀ c ∈ a, isSpace c = true) :
    (a ++ s).dropWhile isSpace = s.dropWhile isSpace := by
  induction a with
  | nil => rfl
  | cons x xs ih =>
    rw [List.cons_append, List.dropWhile_cons, if_pos (ha x (by simp))]
    exact ih (fun c hc => ha c (by simp [hc]))

theorem dropWhile_head (s : Str) (h : ∀ c ∈ s.head?, isSpace c = false) : s.dropWhile isSpace = s := by
  cases s with
  | nil => rfl
  | cons x xs => rw [List.dropWhile_cons, h x (by simp)]; simp

theorem dropWhile_all (b : Str) (hb : ∀ c ∈ b, isSpace c = true) : b.dropWhile isSpace = [] := by
  have := dropWhile_spaces b [] hb
  simpa using this

theorem strip_of_trimmed {raw core : Str} (h : Trimmed raw core) : strip raw = core := by
  obtain ⟨a, b, rfl, ha, hb, h1, h2⟩ := h
  rw [strip, List.append_assoc, dropWhile_spaces a _ ha]
  cases core with
  | nil => simp [dropWhile_all b hb]
  | cons x xs =>
    rw [dropWhile_head (x :: xs ++ b) (by simpa using h1), List.reverse_append, dropWhile_spaces _ _ (by simpa using hb),
      dropWhile_head _ (by rw [List.head?_reverse]; exact h2), List.reverse_reverse]

theorem dropWhile_split (s : Str) : ∃ a, s = a ++ s.dropWhile isSpace ∧ ∀ c ∈ a, isSpace c = true :=
  ⟨s.takeWhile isSpace, (List.takeWhile_append_dropWhile).symm, fun _ hc => List.mem_takeWhile_imp hc⟩

theorem head_dropWhile (s : Str) : ∀ c ∈ (s.dropWhile isSpace).head?, isSpace c = false := by
  induction s with
  | nil => simp
  | cons x xs ih =>
    rw [List.dropWhile_cons]
    split
    · exact ih
    · rename_i hx
      intro c hc
      simp only [List.head?_cons, Option.mem_def, Option.some.injEq] at hc
      subst hc
      simpa using hx

theorem trimmed_strip (raw : Str) : Trimmed raw (strip raw) := by
  obtain ⟨a, ha, ha'⟩ := dropWhile_split raw
  obtain ⟨b, hb, hb'⟩ := dropWhile_split (raw.dropWhile isSpace).reverse
  have hd : raw.dropWhile isSpace = strip raw ++ b.reverse := by
    have := congrArg List.reverse hb
    rw [List.reverse_reverse, List.reverse_append] at this
    exact this
  refine ⟨a, b.reverse, ?_, ha', ?_, ?_, ?_⟩
  · rw [List.append_assoc, ← hd]; exact ha
  · simpa using hb'
  · have h := head_dropWhile raw
    rw [hd] at h
    intro c hc
    cases hs : strip raw with
    | nil => rw [hs] at hc; simp at hc
    | cons x xs =>
      rw [hs] at h hc
      exact h c (by simpa using hc)
  · have h := head_dropWhile (raw.dropWhile isSpace).reverse
    intro c hc
    apply h c
    rw [strip, List.getLast?_reverse] at hc
    exact hc

theorem trimmed_iff (raw core : Str) : Trimmed raw core ↔ strip raw = core :=
  ⟨strip_of_trimmed, fun h => h ▸ trimmed_strip raw⟩

/-! ## Fields -/

theorem split_two (c : Char) (s l r : Str) :
    Items.split c s = [l, r] ↔ s = l ++ c :: r ∧ c ∉ l ∧ c ∉ r := by
  constructor
  · intro h
    have hj := Items.join_split c s
    have hm := Items.split_mem c s
    rw [h] at hj hm
    exact ⟨hj.symm, hm l (by simp), hm r (by simp)⟩
  · rintro ⟨rfl, h1, h2⟩
    rw [Items.split_append c l r h1, Items.split_noc c r h2]

theorem entry_iff (f c w : Str) :
    Entry f c w ↔ ∃ l r, Items.split ':' f = [l, r] ∧ strip l = c ∧ strip r = w := by
  simp only [Entry, split_two, trimmed_iff, and_assoc]

/-- The dictionary after an entry. -/
def put (key : Str) (item : Dict Str (Option Str)) (e : Str × Str) : Dict Str (Option Str) :=
  let item' := Dict.set item e.1 (some e.2)
  if (Dict.get? item' key).join = none then Dict.set item' key (some e.2) else item'

theorem fieldStep_entry {key f c w : Str} (h : Entry f c w) (d : Dict Str (Option Str)) :
    fieldStep key d f = put key d (c, w) := by
  obtain ⟨l, r, hs, rfl, rfl⟩ := (entry_iff f c w).1 h
  rw [fieldStep, hs]
  rfl

theorem fieldStep_skip {key f : Str} (h : ∀ c w, ¬ Entry f c w) (d : Dict Str (Option Str)) :
    fieldStep key d f = d := by
  rw [fieldStep]
  split
  · rename_i l r hs
    exact absurd ((entry_iff f _ _).2 ⟨l, r, hs, rfl, rfl⟩) (h _ _)
  · rfl

theorem fold_entries {key : Str} {fs : List Str} {es : List (Str × Str)} (h : Entries fs es)
    (d : Dict Str (Option Str)) : fs.foldl (fieldStep key) d = es.foldl (put key) d := by
  induction h generalizing d with
  | nil => rfl
  | skip hf _ ih => rw [List.foldl_cons, fieldStep_skip hf, ih]
  | take hf _ ih => rw [List.foldl_cons, fieldStep_entry hf, ih, List.foldl_cons]

/-- Every list of fields has its entries. -/
theorem entries_exist (fs : List Str) : ∃ es, Entries fs es := by
  induction fs with
  | nil => exact ⟨[], .nil⟩
  | cons f fs ih =>
    obtain ⟨es, he⟩ := ih
    by_cases h : ∃ c w, Entry f c w
    · obtain ⟨c, w, h⟩ := h
      exact ⟨_, .take h he⟩
    · exact ⟨es, .skip (fun c w hcw => h ⟨c, w, hcw⟩) he⟩

theorem entry_unique {f c w c' w' : Str} (h : Entry f c w) (h' : Entry f c' w') : c = c' ∧ w = w' := by
  obtain ⟨l, r, hs, rfl, rfl⟩ := (entry_iff f c w).1 h
  obtain ⟨l', r', hs', rfl, rfl⟩ := (entry_iff f c' w').1 h'
  rw [hs] at hs'
  simp only [List.cons.injEq, and_true] at hs'
  exact ⟨by rw [hs'.1], by rw [hs'.2]⟩

theorem entries_unique {fs : List Str} {es es' : List (Str × Str)} (h : Entries fs es) (h' : Entries fs es') :
    es = es' := by
  induction h generalizing es' with
  | nil => cases h'; rfl
  | skip hf _ ih =>
    cases h' with
    | skip _ h' => exact ih h'
    | take hg _ => exact absurd hg (hf _ _)
  | take hf _ ih =>
    cases h' with
    | skip hg _ => exact absurd hf (hg _ _)
    | take hg h' =>
      obtain ⟨rfl, rfl⟩ := entry_unique hf hg
      rw [ih h']

theorem lastFor_snoc (es : List (Str × Str)) (e : Str × Str) (c w : Str) :
    LastFor (es ++ [e]) c w ↔ (e = (c, w)) ∨ (e.1 ≠ c ∧ LastFor es c w) := by
  constructor
  · rintro ⟨pre, post, h, hn⟩
    rcases List.eq_nil_or_concat post with rfl | ⟨post', x, rfl⟩
    · have := List.append_inj' h rfl
      left; simpa using this.2
    · right
      rw [List.concat_eq_append] at h hn
      rw [← List.cons_append, ← List.append_assoc] at h
      have := List.append_inj' h rfl
      simp only [List.cons.injEq, and_true] at this
      simp only [List.map_append, List.map_cons, List.map_nil, List.mem_append, List.mem_singleton, not_or] at hn
      refine ⟨?_, pre, post', this.1, hn.1⟩
      rw [this.2]; exact Ne.symm hn.2
  · rintro (rfl | ⟨hne, pre, post, rfl, hn⟩)
    · exact ⟨es, [], rfl, by simp⟩
    · refine ⟨pre, post ++ [e], by simp, ?_⟩
      simp only [List.map_append, List.map_cons, List.map_nil, List.mem_append, List.mem_singleton, not_or]
      exact ⟨hn, Ne.symm hne⟩

theorem lastFor_mem {es : List (Str × Str)} {c w : Str} (h : LastFor es c w) : c ∈ es.map Prod.fst := by
  obtain ⟨pre, post, rfl, _⟩ := h
  simp

theorem lastFor_exists {es : List (Str × Str)} {c : Str} (h : c ∈ es.map Prod.fst) : ∃ w, LastFor es c w := by
  induction es using List.reverseRecOn with
  | nil => simp at h
  | append_singleton es e ih =>
    by_cases he : e.1 = c
    · exact ⟨e.2, (lastFor_snoc _ _ _ _).2 (Or.inl (by rw [← he]))⟩
    · have : c ∈ es.map Prod.fst := by
        simp only [List.map_append, List.map_cons, List.map_nil, List.mem_append, List.mem_singleton] at h
        exact h.resolve_right (Ne.symm he)
      obtain ⟨w, hw⟩ := ih this
      exact ⟨w, (lastFor_snoc _ _ _ _).2 (Or.inr ⟨he, hw⟩)⟩

theorem lastFor_unique {es : List (Str × Str)} {c w w' : Str} (h : LastFor es c w) (h' : LastFor es c w') : w = w' := by
  induction es using List.reverseRecOn with
  | nil => obtain ⟨pre, post, h, _⟩ := h; simp at h
  | append_singleton es e ih =>
    rcases (lastFor_snoc _ _ _ _).1 h with h1 | ⟨h1, h2⟩ <;> rcases (lastFor_snoc _ _ _ _).1 h' with h1' | ⟨h1', h2'⟩
    · rw [h1] at h1'; exact (Prod.mk.inj h1').2
    · rw [h1] at h1'; exact absurd rfl h1'
    · rw [h1'] at h1; exact absurd rfl h1
    · exact ih h2 h2'

theorem put_get (key : Str) (d : Dict Str (Option Str)) (e : Str × Str) (c : Str) :
    Dict.get? (put key d e) c =
      if e.1 = c then some (some e.2) else
      if key = c ∧ (Dict.get? d key).join = none then some (some e.2) else Dict.get? d c := by
  simp only [put]
  by_cases h1 : e.1 = key
  · subst h1
    simp only [Dict.get?_set, if_true, Option.join_some, reduceCtorEq, if_false]
    by_cases h2 : e.1 = c
    · simp [h2]
    · simp [h2]
  · simp only [Dict.get?_set, if_neg h1]
    by_cases h3 : (Dict.get? d key).join = none
    · simp only [h3, if_true, Dict.get?_set, and_true]
      by_cases h2 : e.1 = c
      · simp [h2]
      · by_cases h4 : key = c <;> simp [h2, h4]
    · simp only [h3, if_false, and_false, Dict.get?_set]

theorem fold_get (key : Str) (es : List (Str × Str)) :
    TableOf key es (es.foldl (put key) [(key, none)]) := by
  induction es using List.reverseRecOn with
  | nil =>
    refine ⟨fun c w hc => ?_, fun w h => absurd (lastFor_mem h) (by simp), fun _ => by simp [Dict.get?_cons]⟩
    constructor
    · intro h
      simp [Dict.get?_cons, Ne.symm hc, Dict.get?] at h
    · rintro ⟨s, _, h⟩
      exact absurd (lastFor_mem h) (by simp)
  | append_singleton es e ih =>
    rw [List.foldl_append, List.foldl_cons, List.foldl_nil]
    generalize es.foldl (put key) [(key, none)] = d at ih
    refine ⟨fun c w hc => ?_, fun w h => ?_, fun h => ?_⟩
    · rw [put_get]
      have hk : ¬ (key = c ∧ (Dict.get? d key).join = none) := fun h => hc h.1.symm
      rw [if_neg hk]
      by_cases he : e.1 = c
      · rw [if_pos he]
        constructor
        · intro h
          refine ⟨e.2, (Option.some.inj h).symm, (lastFor_snoc _ _ _ _).2 (Or.inl (by rw [← he]))⟩
        · rintro ⟨s, rfl, h⟩
          rcases (lastFor_snoc _ _ _ _).1 h with h | ⟨h, _⟩
          · rw [h]
          · exact absurd he h
      · rw [if_neg he, ih.corpus c w hc]
        constructor
        · rintro ⟨s, hs, h⟩
          exact ⟨s, hs, (lastFor_snoc _ _ _ _).2 (Or.inr ⟨he, h⟩)⟩
        · rintro ⟨s, hs, h⟩
          rcases (lastFor_snoc _ _ _ _).1 h with h | ⟨_, h⟩
          · exact absurd (by rw [h]) he
          · exact ⟨s, hs, h⟩
    · rw [put_get]
      rcases (lastFor_snoc _ _ _ _).1 h with h | ⟨h1, h2⟩
      · rw [h]; simp
      · rw [if_neg h1, ih.explicit w h2]
        simp
    · simp only [List.map_append, List.map_cons, List.map_nil, List.mem_append, List.mem_singleton, not_or] at h
      rw [put_get, if_neg (Ne.symm h.2), ih.first h.1]
      cases es with
      | nil => simp
      | cons x xs => simp

theorem fields_length (c : Char) (s : Str) (h : c ∈ s) : 2 ≤ (Items.split c s).length := by
  have hj := Items.join_split c s
  have hm := Items.split_mem c s
  match hs : Items.split c s with
  | [] => exact absurd hs (Items.split_ne_nil c s)
  | [p] =>
    rw [hs] at hj hm
    have : p = s := hj
    exact absurd h (this ▸ hm p (by simp))
  | _ :: _ :: _ => simp

theorem readLine_stands (key raw : Str) : Stands key raw (readLine key raw) := by
  have ht := trimmed_strip raw
  rw [readLine]
  generalize strip raw = core at ht
  split
  · exact .blank ht
  · exact .comment ht
  · rename_i h1 h2
    have hh : core.head? ≠ some '#' := by
      cases core with
      | nil => simp
      | cons x xs =>
        intro h
        simp only [List.head?_cons, Option.some.injEq] at h
        subst h
        exact h2 xs rfl
    split
    · rename_i h3
      obtain ⟨es, he⟩ := entries_exist (Items.split '\t' core)
      rw [fold_entries he]
      refine .table (fs := Items.split '\t' core) ?_ ?_ (Items.split_mem '\t' core) (fields_length '\t' core h3) he
        (fold_get key es)
      · rw [Items.join_split]; exact ht
      · rw [Items.join_split]; exact hh
    · rename_i h3
      exact .plain ht h1 hh h3

/-! ## C96: the lines of a query file -/

/-- The text of a file with the given lines. -/
def fileOf (raws : List Str) : Str := (raws.map (· ++ ['\n'])).flatten

theorem lines_fileOf (raws : List Str) (h : ∀ r ∈ raws, ∀ c ∈ r, isBreak c = false) :
    lines [] (fileOf raws) = raws.map (· ++ ['\n']) := by
  induction raws with
  | nil => rfl
  | cons r rs ih =>
    rw [fileOf, List.map_cons, List.flatten_cons, List.append_assoc]
    have := Verif.Vocab.Plain.lines_row [] r (fileOf rs) (h r (by simp))
    simp only [List.reverse_nil, List.nil_append] at this
    rw [List.singleton_append]
    refine this.trans ?_
    rw [ih (fun r hr => h r (by simp [hr]))]

theorem trimmed_newline (raw core : Str) : Trimmed (raw ++ ['\n']) core ↔ Trimmed raw core := by
  have hn : isSpace '\n' = true := by decide
  suffices h : ∀ core, Trimmed raw core → Trimmed (raw ++ ['\n']) core by
    refine ⟨fun h' => ?_, h core⟩
    have := h _ (trimmed_strip raw)
    rw [trimmed_iff] at this h' ⊢
    rw [← this, h']
  rintro core ⟨a, b, rfl, ha, hb, h1, h2⟩
  refine ⟨a, b ++ ['\n'], by simp, ha, ?_, h1, h2⟩
  intro c hc
  rcases List.mem_append.1 hc with hc | hc
  · exact hb c hc
  · rw [List.mem_singleton.1 hc]; exact hn

theorem stands_newline {key raw : Str} {o : Option Query} (h : Stands key (raw ++ ['\n']) o) : Stands key raw o := by
  cases h with
  | blank h => exact .blank ((trimmed_newline _ _).1 h)
  | comment h => exact .comment ((trimmed_newline _ _).1 h)
  | plain h h1 h2 h3 => exact .plain ((trimmed_newline _ _).1 h) h1 h2 h3
  | table h h1 h2 h3 h4 h5 => exact .table ((trimmed_newline _ _).1 h) h1 h2 h3 h4 h5

/-- Reading a query file gives, in the order of its lines, what each line stands for: nothing for blank lines and
comments, the trimmed line itself if it has no tab, and otherwise the dictionary of its fields.  A file that does not
exist gives no query at all. -/
theorem C96_queries (key : Str) (raws : List Str) (h : ∀ r ∈ raws, ∀ c ∈ r, isBreak c = false) :
    (∃ os, List.Forall₂ (Stands key) raws os ∧ readWordQueries key (some (fileOf raws)) = os.reduceOption) ∧
    readWordQueries key none = [] := by
  refine ⟨⟨raws.map (fun r => readLine key (r ++ ['\n'])), ?_, ?_⟩, rfl⟩
  · rw [List.forall₂_map_right_iff, List.forall₂_same]
    intro r _
    exact stands_newline (readLine_stands key _)
  · rw [readWordQueries, lines_fileOf raws h, List.reduceOption, List.filterMap_map, List.filterMap_map]
    rfl

/-- Two readings of a line that a user cannot tell apart. -/
def Same : Option Query → Option Query → Prop
  | none, none => True
  | some (.plain s), some (.plain t) => s = t
  | some (.table d), some (.table e) => ∀ c, Dict.get? d c = Dict.get? e c
  | _, _ => False

theorem trimmed_unique {raw s t : Str} (h : Trimmed raw s) (h' : Trimmed raw t) : s = t := by
  rw [trimmed_iff] at h h'
  rw [← h, h']

theorem tableOf_unique {key : Str} {es : List (Str × Str)} {d e : Dict Str (Option Str)} (h : TableOf key es d)
    (h' : TableOf key es e) (c : Str) : Dict.get? d c = Dict.get? e c := by
  by_cases hc : c = key
  · subst hc
    by_cases hm : c ∈ es.map Prod.fst
    · obtain ⟨w, hw⟩ := lastFor_exists hm
      rw [h.explicit w hw, h'.explicit w hw]
    · rw [h.first hm, h'.first hm]
  · apply Option.ext
    intro w
    rw [h.corpus c w hc, h'.corpus c w hc]

theorem tab_mem_join {fs : List Str} (h : 2 ≤ fs.length) : '\t' ∈ Items.join '\t' fs := by
  match fs, h with
  | _ :: _ :: _, _ => simp [Items.join]

/-- The specification leaves no choice: what a line stands for is determined. -/
theorem C96_determined {key raw : Str} {o o' : Option Query} (h : Stands key raw o) (h' : Stands key raw o') :
    Same o o' := by
  cases h with
  | blank h =>
    cases h' with
    | blank _ => trivial
    | comment _ => trivial
    | plain g h1 _ _ => exact absurd (trimmed_unique g h) h1
    | table g _ _ h3 _ _ =>
      have := tab_mem_join h3
      rw [trimmed_unique g h] at this
      simp at this
  | comment h =>
    cases h' with
    | blank _ => trivial
    | comment _ => trivial
    | plain g _ h2 _ => rw [trimmed_unique g h] at h2; simp at h2
    | table g h2 _ _ _ _ => rw [trimmed_unique g h] at h2; simp at h2
  | plain h h1 h2 h3 =>
    cases h' with
    | blank g => exact absurd (trimmed_unique h g) h1
    | comment g => rw [trimmed_unique h g] at h2; simp at h2
    | plain g _ _ _ => exact trimmed_unique h g
    | table g _ _ g3 _ _ =>
      have := tab_mem_join g3
      rw [trimmed_unique g h] at this
      exact absurd this h3
  | table h h2 hf h3 he ht =>
    cases h' with
    | blank g =>
      have := tab_mem_join h3
      rw [trimmed_unique h g] at this
      simp at this
    | comment g => rw [trimmed_unique h g] at h2; simp at h2
    | plain g _ _ g3 =>
      have := tab_mem_join h3
      rw [trimmed_unique h g] at this
      exact absurd this g3
    | table g _ hg g3 ge gt =>
      have hj := trimmed_unique h g
      have h1 := Items.split_join '\t' _ (by rintro rfl; simp at h3) hf
      have h2 := Items.split_join '\t' _ (by rintro rfl; simp at g3) hg
      rw [hj, h2] at h1
      subst h1
      have := entries_unique he ge
      subst this
      exact tableOf_unique ht gt

/-- A file with a comment, a plain word and a word with two spellings. -/
example : readWordQueries "_DEFAULT_".toList (some (fileOf ["# words".toList, " appel/noun".toList,
    "LeNC:rustoord/noun\tTwNC: rust_oord/noun".toList])) =
    [.plain "appel/noun".toList, .table [("_DEFAULT_".toList, some "rustoord/noun".toList),
      ("LeNC".toList, some "rustoord/noun".toList), ("TwNC".toList, some "rust_oord/noun".toList)]] := by
  decide +kernel

/-! ## C97: the dictionary of a line -/

/-- A line whose fields all have the form `corpus:word`. -/
theorem entries_all {fs : List Str} {es : List (Str × Str)}
    (h : List.Forall₂ (fun f e => Entry f e.1 e.2) fs es) : Entries fs es := by
  induction h with
  | nil => exact .nil
  | cons h _ ih => exact .take h ih

theorem readLine_table {key raw : Str} {fs : List Str} {es : List (Str × Str)} (hr : Trimmed raw (Items.join '\t' fs))
    (hh : (Items.join '\t' fs).head? ≠ some '#') (hf : ∀ f ∈ fs, '\t' ∉ f) (hl : 2 ≤ fs.length)
    (he : Entries fs es) : ∃ d, readLine key raw = some (.table d) ∧ TableOf key es d := by
  have h1 := readLine_stands key raw
  have h2 : Stands key raw (some (.table (es.foldl (put key) [(key, none)]))) := .table hr hh hf hl he (fold_get key es)
  cases hq : readLine key raw with
  | none => rw [hq] at h1; exact absurd (C96_determined h1 h2) (by simp [Same])
  | some q =>
    rw [hq] at h1
    have hs := C96_determined h1 h2
    cases q with
    | plain s => exact absurd hs (by simp [Same])
    | table d =>
      refine ⟨d, rfl, ?_⟩
      have ht := fold_get key es
      simp only [Same] at hs
      exact ⟨fun c w hc => by rw [hs]; exact ht.corpus c w hc, fun w hw => by rw [hs]; exact ht.explicit w hw,
        fun hm => by rw [hs]; exact ht.first hm⟩

/-- A line with tabs all of whose fields have the form `corpus:word` gives a dictionary with the word of every corpus
(the last one if a corpus is repeated), no other corpus, and always a default word: the explicit one if there is one,
and otherwise the first word of the line.  Missing from the full claim: fields with more than one colon, see
`C97_lost`. -/
theorem C97_table_partial {key raw : Str} {fs : List Str} {es : List (Str × Str)}
    (hr : Trimmed raw (Items.join '\t' fs)) (hh : (Items.join '\t' fs).head? ≠ some '#') (hf : ∀ f ∈ fs, '\t' ∉ f)
    (hl : 2 ≤ fs.length) (he : List.Forall₂ (fun f e => Entry f e.1 e.2) fs es) :
    ∃ d, readLine key raw = some (.table d) ∧
      (∀ c, c ≠ key → ∀ w, Dict.get? d c = some w ↔ ∃ s, w = some s ∧ LastFor es c s) ∧
      (∀ w, LastFor es key w → Dict.get? d key = some (some w)) ∧
      (key ∉ es.map Prod.fst → ∃ w, (es.head?.map Prod.snd) = some w ∧ Dict.get? d key = some (some w)) := by
  obtain ⟨d, hd, ht⟩ := readLine_table (key := key) hr hh hf hl (entries_all he)
  refine ⟨d, hd, fun c hc w => ht.corpus c w hc, ht.explicit, fun hm => ?_⟩
  have hlen := he.length_eq
  cases es with
  | nil => simp only [List.length_nil] at hlen; omega
  | cons e es => exact ⟨e.2, rfl, ht.first hm⟩

/-- The key of the default is always there, but its word is missing exactly when no field is an entry. -/
theorem C97_default {key raw : Str} {fs : List Str} {es : List (Str × Str)} (hr : Trimmed raw (Items.join '\t' fs))
    (hh : (Items.join '\t' fs).head? ≠ some '#') (hf : ∀ f ∈ fs, '\t' ∉ f) (hl : 2 ≤ fs.length)
    (he : Entries fs es) : ∃ d w, readLine key raw = some (.table d) ∧ Dict.get? d key = some w ∧
      (w = none ↔ es = []) := by
  obtain ⟨d, hd, ht⟩ := readLine_table (key := key) hr hh hf hl he
  by_cases hm : key ∈ es.map Prod.fst
  · obtain ⟨w, hw⟩ := lastFor_exists hm
    refine ⟨d, some w, hd, ht.explicit w hw, ?_⟩
    constructor
    · intro h; exact absurd h (by simp)
    · rintro rfl; simp at hm
  · refine ⟨d, _, hd, ht.first hm, ?_⟩
    cases es <;> simp

/-- A word with a colon in it is lost without notice, however well its corpus is named. -/
theorem C97_lost {key raw c u v : Str} {fs : List Str} (hr : Trimmed raw (Items.join '\t' fs))
    (hh : (Items.join '\t' fs).head? ≠ some '#') (hf : ∀ f ∈ fs, '\t' ∉ f) (hl : 2 ≤ fs.length) (hc : c ≠ key)
    (ho : ∀ f ∈ fs, f = c ++ ':' :: u ++ ':' :: v ∨ ∀ w, ¬ Entry f c w) :
    ∃ d, readLine key raw = some (.table d) ∧ Dict.get? d c = none := by
  obtain ⟨es, he⟩ := entries_exist fs
  obtain ⟨d, hd, ht⟩ := readLine_table (key := key) hr hh hf hl he
  refine ⟨d, hd, ?_⟩
  have hn : c ∉ es.map Prod.fst := by
    clear ht hd hr hh hf hl
    induction he with
    | nil => simp
    | skip _ _ ih => exact ih (fun f hf => ho f (by simp [hf]))
    | @take f fs c' w es hE _ ih =>
      simp only [List.map_cons, List.mem_cons, not_or]
      refine ⟨?_, ih (fun f hf => ho f (by simp [hf]))⟩
      rintro rfl
      rcases ho f (by simp) with rfl | h
      · obtain ⟨l, r, h1, h2, h3, _, _⟩ := hE
        have h4 : (c ++ ':' :: u ++ ':' :: v).count ':' = (l ++ ':' :: r).count ':' := by rw [h1]
        simp only [List.count_append, List.count_cons, beq_self_eq_true, if_true, List.count_eq_zero_of_not_mem h2,
          List.count_eq_zero_of_not_mem h3] at h4
        omega
      · exact h w hE
  cases hg : Dict.get? d c with
  | none => rfl
  | some w =>
    obtain ⟨s, _, hs⟩ := (ht.corpus c w hc).1 hg
    exact absurd (lastFor_mem hs) hn

/-- So the claim that every field `corpus:word` of a line is found again is false. -/
theorem C97_false : ¬ ∀ (key raw c w : Str) (d : Dict Str (Option Str)) (fs : List Str),
    Trimmed raw (Items.join '\t' fs) → (c ++ ':' :: w) ∈ fs → readLine key raw = some (.table d) →
    Dict.get? d c ≠ none := by
  intro h
  refine h "D".toList "A:x\tB:10:30".toList "B".toList "10:30".toList
    [("D".toList, some "x".toList), ("A".toList, some "x".toList)] ["A:x".toList, "B:10:30".toList] ?_ ?_ ?_ ?_
  · rw [trimmed_iff]; decide +kernel
  · decide +kernel
  · decide +kernel
  · decide +kernel

/-- And so is the claim that there always is a default word. -/
theorem C97_default_false : ¬ ∀ (key raw : Str) (d : Dict Str (Option Str)),
    readLine key raw = some (.table d) → ∃ w, Dict.get? d key = some (some w) := by
  intro h
  obtain ⟨w, hw⟩ := h "D".toList "appel/noun\tpeer/noun".toList [("D".toList, none)] (by decide +kernel)
  simp [Dict.get?_cons] at hw

/-- The hypotheses of `C97_table_partial` are met by the line of the documentation. -/
example : ∃ (fs : List Str) (es : List (Str × Str)), Trimmed "LeNC:rustoord/noun\tTwNC:rust_oord/noun\n".toList (Items.join '\t' fs) ∧
    (Items.join '\t' fs).head? ≠ some '#' ∧ (∀ f ∈ fs, '\t' ∉ f) ∧ 2 ≤ fs.length ∧
    List.Forall₂ (fun f e => Entry f e.1 e.2) fs es := by
  refine ⟨["LeNC:rustoord/noun".toList, "TwNC:rust_oord/noun".toList],
    [("LeNC".toList, "rustoord/noun".toList), ("TwNC".toList, "rust_oord/noun".toList)], ?_, by decide, by decide,
    by decide, ?_⟩
  · rw [trimmed_iff]; decide +kernel
  · refine .cons ?_ (.cons ?_ .nil)
    · rw [entry_iff]; exact ⟨"LeNC".toList, "rustoord/noun".toList, by decide +kernel⟩
    · rw [entry_iff]; exact ⟨"TwNC".toList, "rust_oord/noun".toList, by decide +kernel⟩

/-! ## C98: the word of a query in a corpus -/

/-- The word of a query that was read from a line is the line itself if it has no tab; otherwise it is, if the word of
a corpus is asked for and the corpus is listed, the (last) word listed for it, and in every other case the explicit
default or, without one, the first word of the line.  A key error never happens, and `None` only if the line has no
entry at all.  Missing from the full claim: the caller has to pass the default key, see `C98_no_key`. -/
theorem C98_word_partial {key raw corpus : Str} {q : Query} (specific : Bool) (hk : corpus ≠ key)
    (h : readLine key raw = some q) :
    (∀ s, q = .plain s → getWordStr q specific corpus (some key) = .ok (some s)) ∧
    (∀ fs es, Trimmed raw (Items.join '\t' fs) → (∀ f ∈ fs, '\t' ∉ f) → 2 ≤ fs.length → Entries fs es →
      (∀ w, specific = true → LastFor es corpus w → getWordStr q specific corpus (some key) = .ok (some w)) ∧
      (specific = false ∨ corpus ∉ es.map Prod.fst →
        (∀ w, LastFor es key w → getWordStr q specific corpus (some key) = .ok (some w)) ∧
        (key ∉ es.map Prod.fst →
          getWordStr q specific corpus (some key) = .ok (es.head?.map Prod.snd)))) := by
  refine ⟨fun s hs => by rw [hs]; rfl, fun fs es hr hf hl he => ?_⟩
  have hh : (Items.join '\t' fs).head? ≠ some '#' := by
    intro hc
    cases hj : Items.join '\t' fs with
    | nil => rw [hj] at hc; simp at hc
    | cons x xs =>
      rw [hj] at hc hr
      simp only [List.head?_cons, Option.some.injEq] at hc
      subst hc
      have := C96_determined (readLine_stands key raw) (.comment hr)
      rw [h] at this
      cases q <;> simp [Same] at this
  obtain ⟨d, hd, ht⟩ := readLine_table (key := key) hr hh hf hl he
  rw [h, Option.some.injEq] at hd
  subst hd
  refine ⟨fun w hs hw => ?_, fun hno => ?_⟩
  · have := (ht.corpus corpus (some w) hk).2 ⟨w, rfl, hw⟩
    simp [getWordStr, hs, this]
  · have hn : (if specific then Dict.get? d corpus else none) = none := by
      cases specific with
      | false => rfl
      | true =>
        rw [if_pos rfl]
        cases hg : Dict.get? d corpus with
        | none => rfl
        | some w =>
          obtain ⟨s, _, hs⟩ := (ht.corpus corpus w hk).1 hg
          exact absurd (lastFor_mem hs) (hno.resolve_left (by simp))
    refine ⟨fun w hw => ?_, fun hm => ?_⟩
    · simp only [getWordStr, hn, Option.bind_some, ht.explicit w hw]
    · simp only [getWordStr, hn, Option.bind_some, ht.first hm]

/-- Without a default key, which is optional, the word of a query with spellings is only found for a listed corpus. -/
theorem C98_no_key (d : Dict Str (Option Str)) (specific : Bool) (corpus : Str) :
    (specific = false ∨ Dict.get? d corpus = none) ↔ getWordStr (.table d) specific corpus none = .error () := by
  cases specific with
  | false => simp [getWordStr]
  | true => cases h : Dict.get? d corpus <;> simp [getWordStr, h]

/-- The spelling of a corpus, and the default for another one. -/
example : getWordStr (.table [("D".toList, some "a".toList), ("A".toList, some "a".toList),
      ("B".toList, some "b".toList)]) true "B".toList (some "D".toList) = .ok (some "b".toList) ∧
    getWordStr (.table [("D".toList, some "a".toList), ("A".toList, some "a".toList),
      ("B".toList, some "b".toList)]) true "E".toList (some "D".toList) = .ok (some "a".toList) := by
  decide +kernel

end Verif.Front
