import Verif.Dep.Sentence
import Verif.Dep.PropsRecord
import Mathlib.Data.List.Induction

set_option linter.unusedSectionVars false

/-!
# C39: sentences of a corpus file; C69: their graphs
-/

namespace Verif.Dep
open Verif.Py

/-! ## C39: cutting a file into sentences -/

/-- Specification: the word lines of the file, with their line numbers (from 1 on), which come after exactly `k` separator
lines. -/
def segment (f : LineFormat) (file : List String) (k : Nat) : List (Nat × String) :=
  (file.zipIdx.filter (fun e => (f.groups e.1).isSome && decide ((file.take e.2).countP f.isSep = k))).map (fun e => (e.2 + 1, e.1))

/-- Specification: all word lines of the file with their numbers. -/
def wordLines (f : LineFormat) (file : List String) : List (Nat × String) :=
  (file.zipIdx.filter (fun e => (f.groups e.1).isSome)).map (fun e => (e.2 + 1, e.1))

theorem segment_snoc (f : LineFormat) (file : List String) (line : String) (k : Nat) :
    segment f (file ++ [line]) k = segment f file k ++
      (if (f.groups line).isSome = true ∧ file.countP f.isSep = k then [(file.length + 1, line)] else []) := by
  unfold segment
  rw [List.zipIdx_append, List.filter_append, List.map_append]
  congr 1
  · congr 1
    apply List.filter_congr
    intro e he
    have hlt : e.2 < file.length := by
      obtain ⟨_, h, _⟩ := List.mem_zipIdx he
      omega
    rw [List.take_append_of_le_length (by omega)]
  · simp only [List.zipIdx_cons, List.zipIdx_nil, Nat.zero_add]
    rw [List.filter_cons]
    have ht : (file ++ [line]).take file.length = file := by simp
    simp only [ht, Bool.and_eq_true, decide_eq_true_eq]
    split_ifs <;> simp

theorem wordLines_snoc (f : LineFormat) (file : List String) (line : String) :
    wordLines f (file ++ [line]) = wordLines f file ++ (if (f.groups line).isSome then [(file.length + 1, line)] else []) := by
  unfold wordLines
  rw [List.zipIdx_append, List.filter_append, List.map_append]
  congr 1
  simp only [List.zipIdx_cons, List.zipIdx_nil, Nat.zero_add]
  rw [List.filter_cons]
  split_ifs <;> simp_all

/-- After the last separator there is nothing yet. -/
theorem segment_beyond (f : LineFormat) (file : List String) (k : Nat) (h : file.countP f.isSep < k) : segment f file k = [] := by
  unfold segment
  rw [List.map_eq_nil_iff, List.filter_eq_nil_iff]
  intro e _
  have := (List.take_sublist e.2 file).countP_le (p := f.isSep)
  simp only [Bool.and_eq_true, decide_eq_true_eq, not_and]
  intro _
  omega

theorem read_state (f : LineFormat) (file : List String) :
    file.foldl (readLine f) ([], [], 0) =
      ((List.range (file.countP f.isSep)).map (segment f file), segment f file (file.countP f.isSep), file.length) := by
  induction file using List.reverseRecOn with
  | nil => rfl
  | append_singleton file line ih =>
    rw [List.foldl_append, ih]
    simp only [List.foldl_cons, List.foldl_nil]
    unfold readLine
    simp only
    have hw : (if (f.groups line).isSome then segment f file (file.countP f.isSep) ++ [(file.length + 1, line)] else segment f file (file.countP f.isSep)) =
        segment f (file ++ [line]) (file.countP f.isSep) := by
      rw [segment_snoc]
      by_cases h : (f.groups line).isSome = true <;> simp [h]
    have hold : (List.range (file.countP f.isSep)).map (segment f file) = (List.range (file.countP f.isSep)).map (segment f (file ++ [line])) := by
      apply List.map_congr_left
      intro k hk
      rw [List.mem_range] at hk
      rw [segment_snoc, if_neg (by omega), List.append_nil]
    rw [hw, hold]
    by_cases hs : f.isSep line = true
    · rw [if_pos hs, List.countP_append]
      have : List.countP f.isSep [line] = 1 := by simp [hs]
      have hz : segment f (file ++ [line]) (file.countP f.isSep + 1) = [] := by
        rw [segment_snoc, segment_beyond f file _ (Nat.lt_succ_self _), if_neg (by omega)]
        rfl
      rw [this, List.range_succ, List.map_append, hz]
      simp
    · rw [if_neg hs, List.countP_append]
      have : List.countP f.isSep [line] = 0 := by simp [hs]
      rw [this]
      simp

/-- **C39**: the `k`-th sentence (from 0 on) consists of exactly the word lines, with their numbers and in order, which
come after exactly `k` separators; there is one sentence for every separator, and one more if word lines follow the last. -/
theorem C39_sentences (f : LineFormat) (file : List String) (k : Nat) :
    (readSentence f file)[k]? = if k < file.countP f.isSep ∨ segment f file k ≠ [] then some (segment f file k) else none := by
  unfold readSentence
  rw [read_state]
  unfold readEnd
  simp only
  have hr : ((List.range (file.countP f.isSep)).map (segment f file))[k]? = if k < file.countP f.isSep then some (segment f file k) else none := by
    rw [List.getElem?_map]
    by_cases h : k < file.countP f.isSep
    · rw [List.getElem?_range h, if_pos h]; rfl
    · rw [if_neg h, List.getElem?_eq_none (by simpa using Nat.le_of_not_lt h)]; rfl
  by_cases hlast : segment f file (file.countP f.isSep) = []
  · rw [if_neg (by simp [hlast]), hr]
    by_cases h : k < file.countP f.isSep
    · rw [if_pos h, if_pos (Or.inl h)]
    · rw [if_neg h, if_neg]
      rintro (h' | h')
      · exact h h'
      · rcases Nat.lt_or_eq_of_le (Nat.le_of_not_lt h) with hk | hk
        · exact h' (segment_beyond f file k hk)
        · exact h' (hk ▸ hlast)
  · rw [if_pos (by exact List.length_pos_iff.2 hlast)]
    rcases Nat.lt_trichotomy k (file.countP f.isSep) with h | h | h
    · rw [List.getElem?_append_left (by simpa using h), hr, if_pos h, if_pos (Or.inl h)]
    · subst h
      rw [List.getElem?_append_right (by simp), if_pos (Or.inr hlast)]
      simp
    · rw [List.getElem?_eq_none (by simp; omega), if_neg]
      rintro (h' | h')
      · omega
      · exact h' (segment_beyond f file k h)

theorem read_flat (f : LineFormat) (file : List String) :
    (file.foldl (readLine f) ([], [], 0)).1.flatten ++ (file.foldl (readLine f) ([], [], 0)).2.1 = wordLines f file ∧
      (file.foldl (readLine f) ([], [], 0)).2.2 = file.length := by
  induction file using List.reverseRecOn with
  | nil => exact ⟨rfl, rfl⟩
  | append_singleton file line ih =>
    rw [List.foldl_append, wordLines_snoc, ← ih.1]
    simp only [List.foldl_cons, List.foldl_nil]
    generalize file.foldl (readLine f) ([], [], 0) = st at ih ⊢
    unfold readLine
    simp only
    rw [ih.2]
    by_cases hs : f.isSep line = true <;> by_cases hw : (f.groups line).isSome = true <;> simp [hs, hw]

/-- **C39**: no word line is lost, repeated or moved. -/
theorem C39_lines (f : LineFormat) (file : List String) : (readSentence f file).flatten = wordLines f file := by
  rw [← (read_flat f file).1]
  unfold readSentence readEnd
  generalize file.foldl (readLine f) ([], [], 0) = st
  by_cases h : st.2.1.length > 0
  · rw [if_pos h]; simp
  · have : st.2.1 = [] := List.length_eq_zero_iff.1 (by omega)
    rw [if_neg h, this, List.append_nil]

theorem foldlM_error {γ δ : Type} (g : δ → γ → Except Err δ) (l : List γ) (x : γ) (hx : x ∈ l)
    (h : ∀ d, ∃ e, g d x = .error e) (d : δ) : ∃ e, l.foldlM g d = .error e := by
  induction l generalizing d with
  | nil => cases hx
  | cons y l ih =>
    rw [List.foldlM_cons]
    cases hg : g d y with
    | error e => exact ⟨e, rfl⟩
    | ok d' =>
      rcases List.mem_cons.1 hx with rfl | hx
      · obtain ⟨e, he⟩ := h d
        rw [hg] at he; cases he
      · obtain ⟨e, he⟩ := ih hx d'
        exact ⟨e, he⟩

/-- **C39 is false** for sentences without word lines: whenever a separator line has no word line between the previous
separator (or the start of the file) and itself, reading raises an exception, and with it the worker that has the file. -/
theorem C39_false_empty (rx : String → String → Bool) (istree : Graph → Bool) (f : LineFormat) (fid : Option String)
    (targets : List String) (macros : List Macro) (file : List String) {k : Nat} (hk : k < file.countP f.isSep)
    (he : segment f file k = []) :
    sentenceGraph f (segment f file k) = .error .valueError ∧
      ∃ e, depJob rx istree f fid targets macros file = .error e := by
  have h1 : sentenceGraph f (segment f file k) = .error .valueError := by
    rw [he]; rfl
  refine ⟨h1, ?_⟩
  have hm : segment f file k ∈ readSentence f file := by
    have := C39_sentences f file k
    rw [if_pos (Or.inl hk)] at this
    exact List.mem_of_getElem? this
  unfold depJob
  apply foldlM_error _ _ _ hm
  intro ms
  refine ⟨.valueError, ?_⟩
  unfold matchSentence
  rw [h1]
  rfl

/-! ## C166: malformed lines -/

/-- A word line is malformed: the settings have no attributes of edges, a column is missing, or one of the two indices is no number.
`pos` is the place of a column among the groups (`colPos`: the number of the last place where the settings name it). -/
inductive Malformed (f : LineFormat) (pos : String → Nat) (g : List String) : Err → Prop
  | noEdges (h : f.edgeAttr = none) : Malformed f pos g .attributeError
  | missing (h : f.edgeAttr ≠ none) (c : String) (hc : c = f.currID) (hg : g.length ≤ pos c) : Malformed f pos g .indexError
  | notNumber (h : f.edgeAttr ≠ none) (v : String) (hv : g[pos f.currID]? = some v) (hn : f.toInt v = none) :
      Malformed f pos g .valueError
  | headMissing (h : f.edgeAttr ≠ none) (v : String) (hv : g[pos f.currID]? = some v) (hn : f.toInt v ≠ none)
      (hg : g.length ≤ pos f.headID) : Malformed f pos g .indexError
  | headNotNumber (h : f.edgeAttr ≠ none) (v : String) (hv : g[pos f.currID]? = some v) (hn : f.toInt v ≠ none) (w : String)
      (hw : g[pos f.headID]? = some w) (hm : f.toInt w = none) : Malformed f pos g .valueError

theorem lineStep_malformed {f : LineFormat} {e : Nat × String} {g : List String} (hg : f.groups e.2 = some g) {k : Err}
    (h : Malformed f (colPos f.columns) g k) (st : Parts) : lineStep f st e = .error k := by
  unfold lineStep
  rw [hg]
  simp only
  cases h with
  | noEdges h => rw [h]
  | missing h c hc hl =>
    subst hc
    cases he : f.edgeAttr with
    | none => exact absurd he h
    | some ea =>
      simp only [getCol, List.getElem?_eq_none hl]
      rfl
  | notNumber h v hv hn =>
    cases he : f.edgeAttr with
    | none => exact absurd he h
    | some ea =>
      simp only [getCol, hv, intOf, hn, bind, Except.bind]
  | headMissing h v hv hn hl =>
    cases he : f.edgeAttr with
    | none => exact absurd he h
    | some ea =>
      cases hn' : f.toInt v with
      | none => exact absurd hn' hn
      | some n => simp only [getCol, hv, intOf, hn', bind, Except.bind, List.getElem?_eq_none hl]
  | headNotNumber h v hv hn w hw hm =>
    cases he : f.edgeAttr with
    | none => exact absurd he h
    | some ea =>
      cases hn' : f.toInt v with
      | none => exact absurd hn' hn
      | some n => simp only [getCol, hv, hw, intOf, hn', hm, bind, Except.bind]

theorem columns_missing {f : LineFormat} {ea g : List String} {c : String} (hc : c ∈ f.columns) (hg : g.length ≤ colPos f.columns c)
    (n h : Nat) (st : Parts) : ∃ e, f.columns.foldlM (colStep f ea g n h) st = .error e := by
  refine foldlM_error _ _ c hc (fun d => ⟨.indexError, ?_⟩) st
  simp only [colStep, getCol, List.getElem?_eq_none hg]
  rfl

/-- **C166.** A malformed word line anywhere in a file is an exception: without `edge-attr`, with an index of the word or of its head
that is no number, or with any column missing.  Which exception it is, if it is the first line: an `AttributeError`, a `ValueError`, an
`IndexError`. -/
theorem C166_malformed (rx : String → String → Bool) (istree : Graph → Bool) (f : LineFormat) (fid : Option String)
    (targets : List String) (macros : List Macro) (file : List String) {line : String} (hl : line ∈ file) {g : List String}
    (hg : f.groups line = some g) :
    ((∃ k, Malformed f (colPos f.columns) g k) ∨ (∃ c ∈ f.columns, g.length ≤ colPos f.columns c) →
      ∃ e, depJob rx istree f fid targets macros file = .error e) ∧
    ∀ k, Malformed f (colPos f.columns) g k → ∀ lid more, sentenceGraph f ((lid, line) :: more) = .error k := by
  constructor
  · intro h
    obtain ⟨i, hi, hil⟩ := List.getElem_of_mem hl
    have hw : (i + 1, line) ∈ wordLines f file := by
      unfold wordLines
      refine List.mem_map.2 ⟨(line, i), List.mem_filter.2 ⟨?_, by simp [hg]⟩, rfl⟩
      rw [List.mem_zipIdx_iff_getElem?, List.getElem?_eq_getElem hi, hil]
    rw [← C39_lines, List.mem_flatten] at hw
    obtain ⟨sent, hs, hx⟩ := hw
    have hbad : ∀ st, ∃ e, lineStep f st (i + 1, line) = .error e := by
      intro st
      rcases h with ⟨k, h⟩ | ⟨c, hc, h⟩
      · exact ⟨k, lineStep_malformed hg h st⟩
      · unfold lineStep
        simp only
        rw [hg]
        simp only
        cases f.edgeAttr with
        | none => exact ⟨_, rfl⟩
        | some ea =>
          simp only
          cases getCol f g f.currID with
          | error e => exact ⟨e, rfl⟩
          | ok c1 =>
            simp only [bind, Except.bind]
            cases intOf f c1 with
            | error e => exact ⟨e, rfl⟩
            | ok n =>
              simp only
              cases getCol f g f.headID with
              | error e => exact ⟨e, rfl⟩
              | ok c2 =>
                simp only
                cases intOf f c2 with
                | error e => exact ⟨e, rfl⟩
                | ok hd =>
                  simp only
                  obtain ⟨e, he⟩ := columns_missing (ea := ea) hc h n hd st
                  rw [he]
                  exact ⟨e, rfl⟩
    obtain ⟨e, he⟩ := foldlM_error (lineStep f) sent _ hx hbad ([], [])
    have hsg : sentenceGraph f sent = .error e := by
      unfold sentenceGraph
      rw [if_neg (List.ne_nil_of_mem hx), he]
      rfl
    unfold depJob
    refine foldlM_error _ _ _ hs (fun ms => ⟨e, ?_⟩) _
    unfold matchSentence
    rw [hsg]
    rfl
  · intro k h lid more
    unfold sentenceGraph
    rw [if_neg (by simp), List.foldlM_cons, lineStep_malformed (e := (lid, line)) hg h]
    rfl

/-- A format of two numbers, for the example. -/
def pairFmt : LineFormat :=
  { groups := fun l => if l = "" then none else some [l, l, l], isSep := fun l => l = "", toInt := fun s => if s = "x" then none else some 1,
    columns := ["id", "head"], nodeAttr := [], edgeAttr := some [], currID := "id", headID := "head" }

example : (∃ k, Malformed pairFmt (colPos pairFmt.columns) ["x", "x", "x"] k) ∧ "x" ∈ ["1", "x"] ∧
    pairFmt.groups "x" = some ["x", "x", "x"] :=
  ⟨⟨_, .notNumber (by decide) "x" (by decide) (by decide)⟩, by decide, by decide⟩

theorem colPos_unnamed {cs : List String} {c : String} (h : c ∉ cs) : colPos cs c = 0 := by
  unfold colPos
  have : ∀ (l : List (String × Nat)), (∀ e ∈ l, e.1 ≠ c) → ∀ a, l.foldl (fun acc e => if e.1 = c then e.2 + 1 else acc) a = a := by
    intro l
    induction l with
    | nil => intro _ a; rfl
    | cons e l ih =>
      intro he a
      rw [List.foldl_cons, if_neg (he e (List.mem_cons_self ..)), ih (fun x hx => he x (List.mem_cons_of_mem _ hx))]
  refine this _ (fun e he hc => h ?_) 0
  have := List.mem_zipIdx he
  rw [← hc, this.2.2]
  exact List.getElem_mem _

/-- **C166** (a column of indices that the settings do not name).  The whole of what the machine matched is taken for the index: unless
that is a number, every word line is a `ValueError`. -/
theorem C166_unnamed (f : LineFormat) {ea : List String} (he : f.edgeAttr = some ea) (hc : f.currID ∉ f.columns) {line whole : String}
    {g : List String} (hg : f.groups line = some (whole :: g)) (lid : Nat) (more : List (Nat × String)) :
    (f.toInt whole = none → sentenceGraph f ((lid, line) :: more) = .error .valueError) ∧
    ∀ n, f.toInt whole = some n → f.headID ∉ f.columns → getCol f (whole :: g) f.headID = .ok whole := by
  constructor
  · intro hn
    unfold sentenceGraph
    have := lineStep_malformed (e := (lid, line)) hg (.notNumber (by rw [he]; simp) whole (by rw [colPos_unnamed hc]; rfl) hn) ([], [])
    rw [if_neg (by simp), List.foldlM_cons, this]
    rfl
  · intro n _ hh
    rw [getCol, colPos_unnamed hh]
    rfl

/-- The same format with another name of the column of the word's index. -/
def otherFmt : LineFormat := { pairFmt with currID := "word" }

example : otherFmt.edgeAttr = some [] ∧ otherFmt.currID ∉ otherFmt.columns ∧ otherFmt.groups "x" = some ["x", "x", "x"] ∧
    otherFmt.toInt "x" = none := by decide

end Verif.Dep
