import Verif.Window.Count

/-! # Property theorems C09-C12, C14, C15 (window, co-occurrence counts, tokens) -/

namespace Verif.Window
open Verif.Py Verif.Vocab Verif.Corpus

variable {α ℓ μ κ : Type}

/-! ## C09 -/

/-- **C09.** After feeding `xs` to a new window with spans `L`, `R`: the centre is the element `R` positions
before the last, the left part holds the `L` elements before it, the right part the `R` elements after it, in
order, and `none` exactly where the sequence has no element.  (Position `i` of the window's left part is
`L - i` before the centre.) -/
theorem C09_window (L R : Nat) (xs : List α) :
    let w := xs.foldl (fun w x => w.update (some x)) (Win.init L R)
    let centre : Int := xs.length - 1 - R
    let at' (i : Int) : Option α := if 0 ≤ i then xs[i.toNat]? else none
    w.node = at' centre ∧
    w.left.length = L ∧ (∀ i < L, w.left[i]? = some (at' (centre - (L - i)))) ∧
    w.right.length = R ∧ (∀ i < R, w.right[i]? = some (at' (centre + 1 + i))) := by
  simp only
  rw [feed_eq]
  refine ⟨rfl, by simp [winAt], ?_, by simp [winAt], ?_⟩
  · intro i hi
    simp only [winAt, List.getElem?_map, List.getElem?_range hi, Option.map_some]
    rw [show (xs.length : Int) - 1 - R - L + i = (xs.length : Int) - 1 - R - (L - i) by omega]
    rfl
  · intro i hi
    simp only [winAt, List.getElem?_map, List.getElem?_range hi, Option.map_some]
    rfl

example : ([1, 2, 3, 4] : List Nat).foldl (fun w x => w.update (some x)) (Win.init 3 1) =
    { lspan := 3, rspan := 1, left := [none, some 1, some 2], right := [some 4], node := some 3 } := by decide

/-! ## C10 -/

variable [LinearOrder κ]

/-- Specification: the matching lines of each segment of the file (no line numbers). -/
def segTexts (f : Formatter ℓ μ κ) (file : List ℓ) : List (List μ) := (segments f file).map (List.map Prod.fst)

/-- Textbook count of a pair in a file. -/
def coocFile (f : Formatter ℓ μ κ) (L R : Nat) (file : List ℓ) (t c : κ) : Nat :=
  ((segTexts f file).map (fun xs => cooc f L R xs t c)).sum

/-- The claim of C10 for one file: the loop never fails and adds the textbook counts of all pairs that pass the
vocabularies. -/
def C10_claim (f : Formatter ℓ μ κ) (L R : Nat) (rowv : Vocab κ) (file : List ℓ) : Prop :=
  ∀ d : ColData κ, ∃ d', updateFile f L R (colCallbacks f rowv) d file = .ok d' ∧
    ∀ t c, cell d'.mtx t c = cell d.mtx t c +
      if passes rowv t ∧ passes d.colv c then (coocFile f L R file t c : Int) else 0

/-- **C10**, what the code computes for every file: as the textbook count, except that in every segment of at most
`R` lines the last line is not counted as a target. -/
theorem C10_exact (f : Formatter ℓ μ κ) (L R : Nat) (rowv : Vocab κ) (d : ColData κ) (file : List ℓ) :
    ∃ d', updateFile f L R (colCallbacks f rowv) d file = .ok d' ∧
    ∀ t c, cell d'.mtx t c = cell d.mtx t c +
      if passes rowv t ∧ passes d.colv c then
        (((segTexts f file).map (fun xs =>
          ((Finset.range xs.length ×ˢ Finset.range xs.length).filter (fun p : Nat × Nat =>
            (xs.length ≤ R → p.1 + 1 < xs.length) ∧ p.1 ≠ p.2 ∧ p.1 ≤ p.2 + L ∧ p.2 ≤ p.1 + R ∧
            xs[p.1]?.map f.getType = some t ∧ xs[p.2]?.map f.getColloc = some c)).card)).sum : Int)
      else 0 := by
  obtain ⟨d', h1, _, h3⟩ := updateFile_col f rowv L R d file
  refine ⟨d', h1, fun t c => ?_⟩
  rw [h3]
  unfold segTexts
  rw [List.map_map]
  have : (fun xs : List (μ × Nat) => coocUpTo f L R (xs.map Prod.fst) t c (colVisits R xs.length)) =
      ((fun xs : List μ => ((Finset.range xs.length ×ˢ Finset.range xs.length).filter (fun p : Nat × Nat =>
            (xs.length ≤ R → p.1 + 1 < xs.length) ∧ p.1 ≠ p.2 ∧ p.1 ≤ p.2 + L ∧ p.2 ≤ p.1 + R ∧
            xs[p.1]?.map f.getType = some t ∧ xs[p.2]?.map f.getColloc = some c)).card) ∘ List.map Prod.fst) := by
    funext xs
    simp only [Function.comp]
    unfold coocUpTo
    congr 1
    apply Finset.filter_congr
    intro p hp
    simp only [Finset.mem_product, Finset.mem_range] at hp
    have : p.1 < colVisits R xs.length ↔ ((xs.map Prod.fst).length ≤ R → p.1 + 1 < (xs.map Prod.fst).length) := by
      simp only [List.length_map] at hp ⊢
      unfold colVisits
      split <;> omega
    rw [this]
  rw [this]

/-- **C10 (partial).** The full claim `C10_claim` is false for files with short segments (`C10_false`).  It holds
for every file without a segment of 2 to `R` lines, for all spans, formats and vocabularies. -/
theorem C10_counts_partial (f : Formatter ℓ μ κ) (L R : Nat) (rowv : Vocab κ) (file : List ℓ)
    (hseg : ∀ xs ∈ segTexts f file, xs.length ≤ 1 ∨ R < xs.length) : C10_claim f L R rowv file := by
  intro d
  obtain ⟨d', h1, h2⟩ := C10_exact f L R rowv d file
  refine ⟨d', h1, fun t c => ?_⟩
  rw [h2]
  unfold coocFile
  congr 3
  congr 1
  apply List.map_congr_left
  intro xs hxs
  unfold cooc
  congr 1
  apply Finset.filter_congr
  intro p hp
  simp only [Finset.mem_product, Finset.mem_range] at hp
  have := hseg xs hxs
  constructor
  · rintro ⟨_, r⟩; exact r
  · rintro ⟨r1, r⟩
    exact ⟨fun h => by rcases this with h' | h' <;> omega, r1, r⟩

/-- The undercount never becomes an overcount: the code's counts are at most the textbook counts. -/
theorem C10_never_overcounts (f : Formatter ℓ μ κ) (L R : Nat) (rowv : Vocab κ) (d : ColData κ) (file : List ℓ) :
    ∃ d', updateFile f L R (colCallbacks f rowv) d file = .ok d' ∧
    ∀ t c, cell d'.mtx t c ≤ cell d.mtx t c +
      if passes rowv t ∧ passes d.colv c then (coocFile f L R file t c : Int) else 0 := by
  obtain ⟨d', h1, h2⟩ := C10_exact f L R rowv d file
  refine ⟨d', h1, fun t c => ?_⟩
  rw [h2]
  split
  · unfold coocFile
    have : ∀ l : List (List μ), (l.map (fun xs =>
          ((Finset.range xs.length ×ˢ Finset.range xs.length).filter (fun p : Nat × Nat =>
            (xs.length ≤ R → p.1 + 1 < xs.length) ∧ p.1 ≠ p.2 ∧ p.1 ≤ p.2 + L ∧ p.2 ≤ p.1 + R ∧
            xs[p.1]?.map f.getType = some t ∧ xs[p.2]?.map f.getColloc = some c)).card)).sum ≤
        (l.map (fun xs => cooc f L R xs t c)).sum := by
      intro l
      induction l with
      | nil => simp
      | cons xs l ih =>
        simp only [List.map_cons, List.sum_cons]
        refine Nat.add_le_add ?_ ih
        apply Finset.card_le_card
        intro p hp
        simp only [Finset.mem_filter] at hp ⊢
        exact ⟨hp.1, hp.2.2⟩
    have := this (segTexts f file)
    omega
  · omega

/-- Sample format: lines are numbers, multiples of 10 are separators, type and collocate are the last digit. -/
def fmt : Formatter Nat Nat Nat :=
  { matchLine := fun n => if n % 10 = 0 then none else some n, isSep := fun n => n % 10 == 0,
    getType := fun n => n % 10, getColloc := fun n => n % 10 }

/-- **C10 is false**: spans (1, 2), a segment of two lines; the pair (second line, first line) is not counted. -/
theorem C10_false : ¬ C10_claim fmt 1 2 Vocab.empty [1, 2] := by
  intro h
  obtain ⟨d', h1, h2⟩ := h ⟨[], Vocab.empty⟩
  have e := h2 2 1
  have : cell d'.mtx 2 1 = 0 := by
    have : updateFile fmt 1 2 (colCallbacks fmt Vocab.empty) ⟨[], Vocab.empty⟩ [1, 2] =
        .ok ⟨[(1, [(2, 1)])], ⟨[(2, 1)], false, false⟩⟩ := rfl
    rw [this] at h1
    injection h1 with h1
    subst h1
    decide
  rw [this] at e
  revert e
  decide

/-- Non-vacuity: a file with two segments long enough for the spans. -/
example : (∀ xs ∈ segTexts fmt [1, 2, 1, 10, 3, 1], xs.length ≤ 1 ∨ 1 < xs.length) ∧
    coocFile fmt 2 1 [1, 2, 1, 10, 3, 1] 1 2 = 2 ∧ coocFile fmt 2 1 [1, 2, 1, 10, 3, 1] 1 1 = 1 := by
  decide

/-! ## C11 -/

/-- The claim of C11 for one file: the loop does not fail and every query type gets one token per line of that
type, in file order, with its line number and its kept neighbours in the segment. -/
def C11_claim (f : Formatter ℓ μ κ) (L R : Nat) (colv : Option (Vocab κ)) (file : List ℓ) : Prop :=
  ∀ d : Dict κ (List (Token μ)), ∃ d', updateFile f L R (tokCallbacks f colv) d file = .ok d' ∧
    ∀ t, d'.get? t = (d.get? t).map (· ++ (segments f file).flatMap (tokensOf f (keepOf colv) L R t))

/-- **C11 (partial).** The full claim `C11_claim` fails only when the right span is 0 and some segment is empty
(second part: then the loop raises `IndexError`). -/
theorem C11_tokens_partial (f : Formatter ℓ μ κ) (L R : Nat) (colv : Option (Vocab κ)) (file : List ℓ) :
    (¬ (R = 0 ∧ [] ∈ segments f file) → C11_claim f L R colv file) ∧
    (R = 0 ∧ [] ∈ segments f file →
      ∀ d, updateFile f L R (tokCallbacks f colv) d file = .error .indexError) :=
  ⟨fun h d => (updateFile_tok f colv L R d file).2 h, fun h d => (updateFile_tok f colv L R d file).1 h⟩

/-- **C11 is false** for right span 0 on every file that ends with a separator line, as sentence-delimited corpora
do. -/
theorem C11_false (f : Formatter ℓ μ κ) (L : Nat) (colv : Option (Vocab κ)) (file : List ℓ) (sep : ℓ)
    (hm : f.matchLine sep = none) (hs : f.isSep sep = true) : ¬ C11_claim f L 0 colv (file ++ [sep]) := by
  intro h
  have hmem : ([] : List (μ × Nat)) ∈ segments f (file ++ [sep]) := by
    rw [segments_append f file [] sep hm hs]
    simp [segments, List.splitOnP_nil]
  have := (C11_tokens_partial f L 0 colv (file ++ [sep])).2 ⟨rfl, hmem⟩ []
  obtain ⟨d', h1, _⟩ := h []
  rw [this] at h1
  cases h1

/-- Every query gets as many tokens as the file has matching lines of that type. -/
theorem C11_token_count (f : Formatter ℓ μ κ) (L R : Nat) (colv : Option (Vocab κ)) (file : List ℓ) (t : κ) :
    ((segments f file).flatMap (tokensOf f (keepOf colv) L R t)).map (fun tok => (tok.m, tok.lid)) =
      ((segments f file).flatten).filter (fun x => decide (f.getType x.1 = t)) := by
  have one : ∀ xs : List (μ × Nat), (tokensOf f (keepOf colv) L R t xs).map (fun tok => (tok.m, tok.lid)) =
      xs.filter (fun x => decide (f.getType x.1 = t)) := by
    intro xs
    unfold tokensOf
    generalize hg : (fun i : Nat => ((xs.take i).drop (i - L)).filter (fun y => keepOf colv (f.getColloc y.1))) = gl
    generalize hh : (fun i : Nat => ((xs.drop (i + 1)).take R).filter (fun y => keepOf colv (f.getColloc y.1))) = gr
    have hgi : ∀ i, ((xs.take i).drop (i - L)).filter (fun y => keepOf colv (f.getColloc y.1)) = gl i := fun i => congrFun hg i
    have hhi : ∀ i, ((xs.drop (i + 1)).take R).filter (fun y => keepOf colv (f.getColloc y.1)) = gr i := fun i => congrFun hh i
    simp only [hgi, hhi]
    clear hgi hhi hg hh
    generalize (0 : Nat) = n
    induction xs generalizing n with
    | nil => rfl
    | cons x xs ih =>
      rw [List.zipIdx_cons, List.filterMap_cons, List.filter_cons]
      by_cases h : f.getType x.1 = t
      · simp only [h, if_true, List.map_cons, decide_true]
        rw [ih]
      · simp only [h, if_false, decide_false, Bool.false_eq_true]
        rw [ih]
  induction segments f file with
  | nil => rfl
  | cons xs segs ih => rw [List.flatMap_cons, List.map_append, one, ih, List.flatten_cons, List.filter_append]

example : (tokensOf fmt (keepOf none) 1 1 1 [(1, 1), (2, 2), (11, 3)] : List (Token Nat)) =
    [⟨1, 1, [], [(2, 2)]⟩, ⟨11, 3, [(2, 2)], []⟩] ∧ segments fmt [1, 2, 11, 10] = [[(1, 1), (2, 2), (11, 3)], []] := by
  decide

/-! ## C12 -/

/-- **C12**, counts: a file made of two parts with a separator between them gives, for every pair, the counts of
the two parts as files of their own, added. -/
theorem C12_counts_split (f : Formatter ℓ μ κ) (L R : Nat) (rowv colv : Vocab κ) (a b : List ℓ) (sep : ℓ)
    (hm : f.matchLine sep = none) (hs : f.isSep sep = true) :
    ∃ dab da db, updateFile f L R (colCallbacks f rowv) ⟨[], colv⟩ (a ++ sep :: b) = .ok dab ∧
      updateFile f L R (colCallbacks f rowv) ⟨[], colv⟩ a = .ok da ∧
      updateFile f L R (colCallbacks f rowv) ⟨[], colv⟩ b = .ok db ∧
      ∀ t c, cell dab.mtx t c = cell da.mtx t c + cell db.mtx t c := by
  obtain ⟨dab, x1, _, x3⟩ := updateFile_col f rowv L R ⟨[], colv⟩ (a ++ sep :: b)
  obtain ⟨da, y1, _, y3⟩ := updateFile_col f rowv L R ⟨[], colv⟩ a
  obtain ⟨db, z1, _, z3⟩ := updateFile_col f rowv L R ⟨[], colv⟩ b
  refine ⟨dab, da, db, x1, y1, z1, fun t c => ?_⟩
  have z : cell ([] : Nested κ) t c = 0 := rfl
  rw [x3, y3, z3, segments_append f a b sep hm hs]
  simp only [z, List.map_append, List.map_map, List.sum_append]
  have : (fun xs : List (μ × Nat) => coocUpTo f L R (xs.map Prod.fst) t c (colVisits R xs.length)) ∘
      List.map (fun x : μ × Nat => (x.1, x.2 + (a.length + 1))) =
      (fun xs : List (μ × Nat) => coocUpTo f L R (xs.map Prod.fst) t c (colVisits R xs.length)) := by
    funext xs
    simp only [Function.comp, List.map_map, List.length_map]
    rfl
  rw [this]
  by_cases hp : passes rowv t = true ∧ passes colv c = true
  · simp only [if_pos hp]; push_cast; omega
  · simp only [if_neg hp]; omega

/-- A token with all its line numbers moved by `n`. -/
def shiftTok (n : Nat) (tok : Token μ) : Token μ :=
  { m := tok.m, lid := tok.lid + n, left := tok.left.map (fun x => (x.1, x.2 + n)),
    right := tok.right.map (fun x => (x.1, x.2 + n)) }

/-- **C12**, tokens: the tokens of a file made of two parts with a separator between them are the tokens of the
parts as files of their own, those of the second part with shifted line numbers. -/
theorem C12_tokens_split (f : Formatter ℓ μ κ) (L R : Nat) (colv : Option (Vocab κ)) (t : κ) (a b : List ℓ) (sep : ℓ)
    (hm : f.matchLine sep = none) (hs : f.isSep sep = true)
    (hok : R ≠ 0 ∨ ([] ∉ segments f a ∧ [] ∉ segments f b)) (queries : Dict κ (List (Token μ)))
    (hq : queries.get? t = some []) :
    ∃ dab da db toksa toksb, updateFile f L R (tokCallbacks f colv) queries (a ++ sep :: b) = .ok dab ∧
      updateFile f L R (tokCallbacks f colv) queries a = .ok da ∧
      updateFile f L R (tokCallbacks f colv) queries b = .ok db ∧
      da.get? t = some toksa ∧ db.get? t = some toksb ∧
      dab.get? t = some (toksa ++ toksb.map (shiftTok (a.length + 1))) := by
  have hseg := segments_append f a b sep hm hs
  have hok' : ¬ (R = 0 ∧ [] ∈ segments f (a ++ sep :: b)) := by
    rintro ⟨r, h⟩
    rcases hok with h1 | ⟨h1, h2⟩
    · exact h1 r
    · rw [hseg, List.mem_append, List.mem_map] at h
      rcases h with h | ⟨x, hx, e⟩
      · exact h1 h
      · rw [List.map_eq_nil_iff] at e
        exact h2 (e ▸ hx)
  obtain ⟨dab, x1, x2⟩ := (C11_tokens_partial f L R colv (a ++ sep :: b)).1 hok' queries
  obtain ⟨da, y1, y2⟩ := (C11_tokens_partial f L R colv a).1 (by rintro ⟨r, h⟩; rcases hok with h1 | ⟨h1, h2⟩ <;> simp_all) queries
  obtain ⟨db, z1, z2⟩ := (C11_tokens_partial f L R colv b).1 (by rintro ⟨r, h⟩; rcases hok with h1 | ⟨h1, h2⟩ <;> simp_all) queries
  refine ⟨dab, da, db, (segments f a).flatMap (tokensOf f (keepOf colv) L R t),
    (segments f b).flatMap (tokensOf f (keepOf colv) L R t), x1, y1, z1, ?_, ?_, ?_⟩
  · rw [y2, hq]; simp
  · rw [z2, hq]; simp
  · rw [x2, hq, hseg]
    simp only [Option.map_some, List.nil_append, List.flatMap_append, Option.some.injEq]
    congr 1
    rw [List.flatMap_map, List.map_flatMap]
    congr 1
    funext xs
    unfold tokensOf
    rw [List.zipIdx_map, List.filterMap_map, List.map_filterMap]
    congr 1
    funext p
    simp only [Function.comp, Prod.map]
    by_cases h : f.getType p.1.1 = t
    · simp only [h, if_true, Option.map_some, shiftTok, id, Option.some.injEq, Token.mk.injEq, true_and]
      constructor
      · rw [← List.map_take, ← List.map_drop, List.filter_map]; rfl
      · rw [← List.map_drop, ← List.map_take, List.filter_map]; rfl
    · simp [h]

example : fmt.matchLine 10 = none ∧ fmt.isSep 10 = true ∧ ([] ∉ segments fmt [1, 2] ∧ [] ∉ segments fmt [3]) := by
  decide

/-! ## C14 -/

/-- Swapping the spans and the roles: the textbook counts agree. -/
theorem cooc_swap (f : Formatter ℓ μ κ) (hf : f.getType = f.getColloc) (L R : Nat) (xs : List μ) (t c : κ) :
    cooc f L R xs t c = cooc f R L xs c t := by
  unfold cooc
  refine Finset.card_bij' (fun p _ => (p.2, p.1)) (fun p _ => (p.2, p.1)) ?_ ?_ ?_ ?_
  · intro p hp
    simp only [Finset.mem_filter, Finset.mem_product] at hp ⊢
    obtain ⟨⟨h1, h2⟩, h3, h4, h5, h6, h7⟩ := hp
    exact ⟨⟨h2, h1⟩, fun h => h3 h.symm, h5, h4, by rw [hf]; exact h7, by rw [← hf]; exact h6⟩
  · intro p hp
    simp only [Finset.mem_filter, Finset.mem_product] at hp ⊢
    obtain ⟨⟨h1, h2⟩, h3, h4, h5, h6, h7⟩ := hp
    exact ⟨⟨h2, h1⟩, fun h => h3 h.symm, h5, h4, by rw [hf]; exact h7, by rw [← hf]; exact h6⟩
  · intro p _; rfl
  · intro p _; rfl

/-- The claim of C14 for one file (no vocabularies in the way). -/
def C14_claim (f : Formatter ℓ μ κ) (L R : Nat) (file : List ℓ) : Prop :=
  ∀ d e, updateFile f L R (colCallbacks f Vocab.empty) ⟨[], Vocab.empty⟩ file = .ok d →
    updateFile f R L (colCallbacks f Vocab.empty) ⟨[], Vocab.empty⟩ file = .ok e →
    ∀ a b, cell d.mtx a b = cell e.mtx b a

/-- **C14 (partial).** The full claim `C14_claim` for all files is false (`C14_false`).  It holds for files without
a segment of 2 to `max L R` lines; with `L = R` the counts are then symmetric. -/
theorem C14_transpose_partial (f : Formatter ℓ μ κ) (hf : f.getType = f.getColloc) (L R : Nat) (file : List ℓ)
    (hseg : ∀ xs ∈ segTexts f file, xs.length ≤ 1 ∨ max L R < xs.length) : C14_claim f L R file := by
  intro d e hd he a b
  obtain ⟨d', h1, h2⟩ := C10_counts_partial f L R Vocab.empty file
    (fun xs h => (hseg xs h).imp id (fun h => lt_of_le_of_lt (le_max_right _ _) h)) ⟨[], Vocab.empty⟩
  obtain ⟨e', h3, h4⟩ := C10_counts_partial f R L Vocab.empty file
    (fun xs h => (hseg xs h).imp id (fun h => lt_of_le_of_lt (le_max_left _ _) h)) ⟨[], Vocab.empty⟩
  rw [hd] at h1; injection h1 with h1; subst h1
  rw [he] at h3; injection h3 with h3; subst h3
  have z : ∀ t c, cell ([] : Nested κ) t c = 0 := fun _ _ => rfl
  have p : ∀ c : κ, passes (Vocab.empty : Vocab κ) c = true := fun _ => rfl
  rw [h2, h4]
  simp only [z, p, and_self, if_true]
  unfold coocFile
  congr 3
  apply List.map_congr_left
  intro xs _
  exact cooc_swap f hf L R xs a b

/-- **C14 is false**: two lines, spans (1, 2) and (2, 1). -/
theorem C14_false : ¬ C14_claim fmt 1 2 [1, 2] := by
  intro h
  have := h ⟨[(1, [(2, 1)])], ⟨[(2, 1)], false, false⟩⟩ ⟨[(1, [(2, 1)]), (2, [(1, 1)])], ⟨[(2, 1), (1, 1)], false, false⟩⟩
    rfl rfl 2 1
  revert this
  decide

example : fmt.getType = fmt.getColloc ∧
    ∀ xs ∈ segTexts fmt [1, 2, 1, 10, 3, 1, 2, 5], xs.length ≤ 1 ∨ max 2 1 < xs.length := by
  refine ⟨rfl, ?_⟩
  decide

/-! ## C15 -/

/-- **C15.** Counting with a column (row) vocabulary that filters gives the counts without one for the items of the
vocabulary and 0 for the others; this holds for every file, short segments included. -/
theorem C15_filter_commutes (f : Formatter ℓ μ κ) (L R : Nat) (file : List ℓ) (rowv colv : Vocab κ)
    (hr : rowv.filter = true) (hc : colv.filter = true) :
    ∃ d e, updateFile f L R (colCallbacks f rowv) ⟨[], colv⟩ file = .ok d ∧
      updateFile f L R (colCallbacks f Vocab.empty) ⟨[], Vocab.empty⟩ file = .ok e ∧
      ∀ t c, cell d.mtx t c = if contains rowv t ∧ contains colv c then cell e.mtx t c else 0 := by
  obtain ⟨d, x1, _, x3⟩ := updateFile_col f rowv L R ⟨[], colv⟩ file
  obtain ⟨e, y1, _, y3⟩ := updateFile_col f Vocab.empty L R ⟨[], Vocab.empty⟩ file
  refine ⟨d, e, x1, y1, fun t c => ?_⟩
  have z : ∀ t c, cell ([] : Nested κ) t c = 0 := fun _ _ => rfl
  have p : ∀ c : κ, passes (Vocab.empty : Vocab κ) c = true := fun _ => rfl
  have q : ∀ (v : Vocab κ) (c : κ), v.filter = true → passes v c = contains v c := by
    intro v c h; simp [passes, h]
  rw [x3, y3]
  simp only [z, p, and_self, if_true, zero_add, q _ _ hr, q _ _ hc]

/-- **C15**, only the column vocabulary: rows are the same. -/
theorem C15_col_filter_commutes (f : Formatter ℓ μ κ) (L R : Nat) (file : List ℓ) (rowv colv : Vocab κ)
    (hc : colv.filter = true) :
    ∃ d e, updateFile f L R (colCallbacks f rowv) ⟨[], colv⟩ file = .ok d ∧
      updateFile f L R (colCallbacks f rowv) ⟨[], Vocab.empty⟩ file = .ok e ∧
      ∀ t c, cell d.mtx t c = if contains colv c then cell e.mtx t c else 0 := by
  obtain ⟨d, x1, _, x3⟩ := updateFile_col f rowv L R ⟨[], colv⟩ file
  obtain ⟨e, y1, _, y3⟩ := updateFile_col f rowv L R ⟨[], Vocab.empty⟩ file
  refine ⟨d, e, x1, y1, fun t c => ?_⟩
  have z : ∀ t c, cell ([] : Nested κ) t c = 0 := fun _ _ => rfl
  have p : ∀ c : κ, passes (Vocab.empty : Vocab κ) c = true := fun _ => rfl
  have q : ∀ c : κ, passes colv c = contains colv c := by
    intro c; simp [passes, hc]
  rw [x3, y3]
  simp only [z, p, and_true, zero_add, q]
  by_cases h1 : contains colv c = true <;> by_cases h2 : passes rowv t = true <;> simp [h1, h2]

example : (mk' [(1, 5), (2, 0)] : Vocab Nat).filter = true ∧ contains (mk' [(1, 5), (2, 0)] : Vocab Nat) 2 = true ∧
    contains (mk' [(1, 5), (2, 0)] : Vocab Nat) 3 = false := by decide

end Verif.Window
