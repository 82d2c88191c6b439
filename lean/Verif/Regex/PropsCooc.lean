import Verif.Regex.PropsLines
import Verif.Window.Props

/-!
# C188: from the text of a corpus to co-occurrence counts
-/

namespace Verif.Regex

open Verif.Py
open Verif.Vocab.Plain (Str isSpace isBreak)
open Verif.Vocab (Vocab)
open Verif.Items (Settings Formatter construct readLine matchLine separatorLine getType getColloc)
open Verif.Window (segments segsFrom segTexts updateFile colCallbacks ColData cell passes coocFile cooc)

/-- The sections of a corpus between its boundary lines (other lines, such as tags, are skipped), each the list of its items `lemma/pos`. -/
def sections : List Row → List (List Str)
  | [] => [[]]
  | .boundary :: rs => [] :: sections rs
  | .other _ :: rs => sections rs
  | .item _ p l :: rs =>
    match sections rs with
    | [] => [[l ++ '/' :: p]]
    | s :: ss => ((l ++ '/' :: p) :: s) :: ss

theorem sections_ne (rs : List Row) : sections rs ≠ [] := by
  induction rs with
  | nil => simp [sections]
  | cons r rs ih =>
    cases r with
    | boundary => simp [sections]
    | other line => rw [sections]; exact ih
    | item w p l =>
      rw [sections]
      split <;> simp

theorem sections_item (w p l : Str) (rs : List Row) :
    sections (.item w p l :: rs) = (sections rs).modifyHead ((l ++ '/' :: p) :: ·) := by
  rw [sections]
  cases hs : sections rs with
  | nil => exact absurd hs (sections_ne rs)
  | cons s ss => rfl

/-- The formatter of the shipped settings on the rows of a corpus. -/
theorem shipped_rows (u : Tables) {s' : Settings} {f : Formatter} (hf : construct shipped = .ok (s', f)) {r : Row} (h : r.Fine) :
    (∀ w p l, r = .item w p l → ∃ m, (asFormatter (reMatch u) f).matchLine r.text = some m ∧
      (asFormatter (reMatch u) f).getType m = l ++ '/' :: p ∧ (asFormatter (reMatch u) f).getColloc m = l ++ '/' :: p) ∧
    (r = .boundary → (asFormatter (reMatch u) f).matchLine r.text = none ∧ (asFormatter (reMatch u) f).isSep r.text = true) ∧
    ∀ line, r = .other line → (asFormatter (reMatch u) f).matchLine r.text = none ∧ (asFormatter (reMatch u) f).isSep r.text = false := by
  have hlm := lineMachine_of hf shipped_machine
  have hread := shipped_line u hf h
  unfold readLine matchLine at hread
  rw [hlm] at hread
  simp only [Verif.Items.attr, bind, Except.bind, pure, Except.pure] at hread
  refine ⟨?_, ?_, ?_⟩
  · rintro w p l rfl
    cases hx : reMatch u (machine ['\\', 't'] (List.replicate (2 + 1) .keep)) (Row.text (.item w p l)) with
    | some m =>
      rw [hx] at hread
      simp only [Except.ok.injEq] at hread
      have ht := (C182_shipped u hf (rows := []) (by simp)).2 w p l m hread.symm
      refine ⟨m, ?_, ?_, ?_⟩
      · simp only [asFormatter, hlm]; exact hx
      · simp only [asFormatter, ht.1]
      · simp only [asFormatter, ht.2.1]
    | none =>
      exfalso
      rw [hx] at hread
      simp only at hread
      split at hread
      · cases hread
      · split at hread <;> cases hread
  · rintro rfl
    cases hx : reMatch u (machine ['\\', 't'] (List.replicate (2 + 1) .keep)) (Row.text .boundary) with
    | some m =>
      rw [hx] at hread
      simp only [Except.ok.injEq] at hread
      cases hread
    | none =>
      rw [hx] at hread
      simp only at hread
      refine ⟨by simp only [asFormatter, hlm]; exact hx, ?_⟩
      unfold separatorLine at hread
      simp only [asFormatter]
      cases hs : f.single with
      | none =>
        rw [hs] at hread
        cases hread
      | some sg =>
        rw [hs] at hread
        simp only [Verif.Items.attr, bind, Except.bind, pure, Except.pure] at hread
        split at hread
        · assumption
        · cases hread
  · rintro line rfl
    cases hx : reMatch u (machine ['\\', 't'] (List.replicate (2 + 1) .keep)) (Row.text (.other line)) with
    | some m =>
      rw [hx] at hread
      simp only [Except.ok.injEq] at hread
      cases hread
    | none =>
      rw [hx] at hread
      simp only at hread
      refine ⟨by simp only [asFormatter, hlm]; exact hx, ?_⟩
      unfold separatorLine at hread
      simp only [asFormatter]
      cases hs : f.single with
      | none => rfl
      | some sg =>
        rw [hs] at hread
        simp only [Verif.Items.attr, bind, Except.bind, pure, Except.pure] at hread
        split at hread
        · cases hread
        · simp only
          exact Bool.eq_false_iff.2 (by assumption)

theorem segs_rows (u : Tables) {s' : Settings} {f : Formatter} (hf : construct shipped = .ok (s', f)) {rows : List Row}
    (h : ∀ r ∈ rows, r.Fine) (cur : List (Verif.Items.Match × Nat)) (lid : Nat) :
    ((segsFrom (asFormatter (reMatch u) f) cur lid (rows.map Row.text)).map (List.map Prod.fst)).map
        (List.map (asFormatter (reMatch u) f).getType) =
      (sections rows).modifyHead (cur.map (fun m => (asFormatter (reMatch u) f).getType m.1) ++ ·) ∧
    ((segsFrom (asFormatter (reMatch u) f) cur lid (rows.map Row.text)).map (List.map Prod.fst)).map
        (List.map (asFormatter (reMatch u) f).getColloc) =
      (sections rows).modifyHead (cur.map (fun m => (asFormatter (reMatch u) f).getColloc m.1) ++ ·) := by
  induction rows generalizing cur lid with
  | nil =>
    rw [List.map_nil, Verif.Window.segsFrom_nil]
    simp [sections, Function.comp_def]
  | cons r rs ih =>
    have hr := shipped_rows u hf (h r (List.mem_cons_self ..))
    have ih := fun cur lid => ih (fun x hx => h x (List.mem_cons_of_mem _ hx)) cur lid
    rw [List.map_cons, Verif.Window.segsFrom_cons]
    cases r with
    | item w p l =>
      obtain ⟨m, h1, h2, h3⟩ := hr.1 w p l rfl
      rw [h1]
      simp only
      obtain ⟨i1, i2⟩ := ih (cur ++ [(m, lid + 1)]) (lid + 1)
      rw [i1, i2, sections_item]
      cases hs : sections rs with
      | nil => exact absurd hs (sections_ne rs)
      | cons s ss => simp [h2, h3]
    | other line =>
      obtain ⟨h1, h2⟩ := hr.2.2 line rfl
      rw [h1]
      simp only
      rw [if_neg (by rw [h2]; exact Bool.false_ne_true)]
      exact ih cur (lid + 1)
    | boundary =>
      obtain ⟨h1, h2⟩ := hr.2.1 rfl
      rw [h1]
      simp only
      rw [if_pos h2]
      obtain ⟨i1, i2⟩ := ih [] (lid + 1)
      rw [List.map_cons, List.map_cons, i1, sections]
      constructor
      · cases hs : sections rs with
        | nil => exact absurd hs (sections_ne rs)
        | cons s ss => simp [Function.comp_def]
      · rw [List.map_cons, i2]
        cases hs : sections rs with
        | nil => exact absurd hs (sections_ne rs)
        | cons s ss => simp [Function.comp_def]

theorem segTexts_rows (u : Tables) {s' : Settings} {f : Formatter} (hf : construct shipped = .ok (s', f)) {rows : List Row}
    (h : ∀ r ∈ rows, r.Fine) :
    (segTexts (asFormatter (reMatch u) f) (fileLines (textOf (rows.map Row.text)))).map (List.map (asFormatter (reMatch u) f).getType) =
      sections rows ∧
    (segTexts (asFormatter (reMatch u) f) (fileLines (textOf (rows.map Row.text)))).map (List.map (asFormatter (reMatch u) f).getColloc) =
      sections rows := by
  rw [fileLines_text (by
      intro l hl
      obtain ⟨r, hr, rfl⟩ := List.mem_map.1 hl
      exact Row.fine (h r hr))]
  have hseg : segTexts (asFormatter (reMatch u) f) (rows.map Row.text) =
      (segsFrom (asFormatter (reMatch u) f) [] 0 (rows.map Row.text)).map (List.map Prod.fst) := by
    unfold segTexts segments segsFrom
    congr 1
    generalize List.map _ _ = l
    cases l <;> rfl
  obtain ⟨i1, i2⟩ := segs_rows u hf h [] 0
  rw [hseg, i1, i2]
  have : ∀ l : List (List Str), l.modifyHead (([] : List Str) ++ ·) = l := by
    intro l
    cases l <;> rfl
  exact ⟨this _, this _⟩

/-- How often `c` stands within the spans of `t` in a section: places `i` of `t` and `j` of `c`. -/
def nearby (L R : Nat) (xs : List Str) (t c : Str) : Nat :=
  ((Finset.range xs.length ×ˢ Finset.range xs.length).filter (fun p : Nat × Nat =>
    p.1 ≠ p.2 ∧ p.1 ≤ p.2 + L ∧ p.2 ≤ p.1 + R ∧ xs[p.1]? = some t ∧ xs[p.2]? = some c)).card

/-- What is counted in a section: as `nearby`, but the last item of a section of at most `R` items is no target. -/
def nearbyCounted (L R : Nat) (xs : List Str) (t c : Str) : Nat :=
  ((Finset.range xs.length ×ˢ Finset.range xs.length).filter (fun p : Nat × Nat =>
    (xs.length ≤ R → p.1 + 1 < xs.length) ∧ p.1 ≠ p.2 ∧ p.1 ≤ p.2 + L ∧ p.2 ≤ p.1 + R ∧ xs[p.1]? = some t ∧ xs[p.2]? = some c)).card

theorem sum_counted {μ : Type} (gt gc : μ → Str) (L R : Nat) (t c : Str) :
    ∀ (ms : List (List μ)) (ss : List (List Str)), ms.map (List.map gt) = ss → ms.map (List.map gc) = ss →
      (ms.map (fun xs => ((Finset.range xs.length ×ˢ Finset.range xs.length).filter (fun p : Nat × Nat =>
            (xs.length ≤ R → p.1 + 1 < xs.length) ∧ p.1 ≠ p.2 ∧ p.1 ≤ p.2 + L ∧ p.2 ≤ p.1 + R ∧
            xs[p.1]?.map gt = some t ∧ xs[p.2]?.map gc = some c)).card)).sum =
      (ss.map (fun xs => nearbyCounted L R xs t c)).sum := by
  intro ms
  induction ms with
  | nil => rintro ss rfl _; rfl
  | cons xs ms ih =>
    rintro ss rfl h2
    rw [List.map_cons, List.map_cons] at h2
    rw [List.map_cons, List.map_cons, List.map_cons, List.sum_cons, List.sum_cons, ih _ rfl (List.cons.inj h2).2]
    congr 1
    have hx := (List.cons.inj h2).1
    unfold nearbyCounted
    rw [List.length_map]
    congr 1
    refine Finset.filter_congr fun p _ => ?_
    have e1 : (xs.map gt)[p.1]? = xs[p.1]?.map gt := List.getElem?_map ..
    have e2 : (xs.map gt)[p.2]? = xs[p.2]?.map gc := by rw [← hx]; exact List.getElem?_map ..
    rw [e1, e2]

/-- **C188**, exact: what is added to the matrix by a file in the shipped format, from its text. -/
theorem C188_exact (u : Tables) {s' : Settings} {f : Formatter} (hf : construct shipped = .ok (s', f)) {rows : List Row}
    (h : ∀ r ∈ rows, r.Fine) (L R : Nat) (rowv : Vocab Str) (d : ColData Str) :
    ∃ d', updateFile (asFormatter (reMatch u) f) L R (colCallbacks (asFormatter (reMatch u) f) rowv) d
        (fileLines (textOf (rows.map Row.text))) = .ok d' ∧
      ∀ t c, cell d'.mtx t c = cell d.mtx t c +
        if passes rowv t ∧ passes d.colv c then (((sections rows).map (fun xs => nearbyCounted L R xs t c)).sum : Int) else 0 := by
  obtain ⟨d', h1, h2⟩ := Verif.Window.C10_exact (asFormatter (reMatch u) f) L R rowv d (fileLines (textOf (rows.map Row.text)))
  refine ⟨d', h1, fun t c => ?_⟩
  obtain ⟨e1, e2⟩ := segTexts_rows u hf h
  rw [h2 t c, sum_counted _ _ L R t c _ _ e1 e2]

/-- **C188** (partial): from the text of a file in the shipped format, the matrix holds for every pair how often the second item
stands within the spans of the first between two boundary lines.  Missing: files with sections of 2 to `R` items (`C10_false`). -/
theorem C188_partial (u : Tables) {s' : Settings} {f : Formatter} (hf : construct shipped = .ok (s', f)) {rows : List Row}
    (h : ∀ r ∈ rows, r.Fine) (L R : Nat) (hsec : ∀ xs ∈ sections rows, xs.length ≤ 1 ∨ R < xs.length) (rowv : Vocab Str)
    (d : ColData Str) :
    ∃ d', updateFile (asFormatter (reMatch u) f) L R (colCallbacks (asFormatter (reMatch u) f) rowv) d
        (fileLines (textOf (rows.map Row.text))) = .ok d' ∧
      ∀ t c, cell d'.mtx t c = cell d.mtx t c +
        if passes rowv t ∧ passes d.colv c then (((sections rows).map (fun xs => nearby L R xs t c)).sum : Int) else 0 := by
  obtain ⟨d', h1, h2⟩ := C188_exact u hf h L R rowv d
  refine ⟨d', h1, fun t c => ?_⟩
  rw [h2 t c]
  have : (sections rows).map (fun xs => nearbyCounted L R xs t c) = (sections rows).map (fun xs => nearby L R xs t c) := by
    refine List.map_congr_left fun xs hx => ?_
    unfold nearbyCounted nearby
    congr 1
    refine Finset.filter_congr fun p hp => ?_
    simp only [Finset.mem_product, Finset.mem_range] at hp
    have := hsec xs hx
    constructor
    · rintro ⟨_, r⟩; exact r
    · rintro ⟨r1, r⟩
      exact ⟨fun h => by rcases this with h' | h' <;> omega, r1, r⟩
  rw [this]

/-- Five items in two sections, with a tag. -/
def cooRows : List Row :=
  [.item ['a'] ['D'] ['a'], .item ['c'] ['N'] ['b'], .item ['d'] ['V'] ['d'], .boundary, .item ['b'] ['N'] ['b'], .other ['<', 's', '>'],
   .item ['a'] ['D'] ['a']]

theorem coo_fine : ∀ r ∈ cooRows, r.Fine := by
  simp only [cooRows, List.mem_cons, List.not_mem_nil, or_false, forall_eq_or_imp, forall_eq]
  refine ⟨by simp [Row.Fine, isBreak, isSpace], by simp [Row.Fine, isBreak, isSpace], by simp [Row.Fine, isBreak, isSpace], trivial,
    by simp [Row.Fine, isBreak, isSpace], ⟨⟨by decide, .inr ⟨⟨'<', rfl, by decide⟩, ⟨'>', rfl, by decide⟩⟩⟩, by decide, by decide⟩,
    by simp [Row.Fine, isBreak, isSpace]⟩

example : sections cooRows = [["a/D".toList, "b/N".toList, "d/V".toList], ["b/N".toList, "a/D".toList]] ∧
    nearby 1 1 ["a/D".toList, "b/N".toList, "d/V".toList] "b/N".toList "a/D".toList = 1 ∧
    ((sections cooRows).map (fun xs => nearby 1 1 xs "b/N".toList "a/D".toList)).sum = 2 ∧
    ∀ xs ∈ sections cooRows, xs.length ≤ 1 ∨ 1 < xs.length := by decide +kernel

/-- **C188 is false** as it stands: with a right span of 2 the pair of the second section is not counted for its last item. -/
theorem C188_false : ∃ (s' : Settings) (f : Formatter) (d' : ColData Str), construct shipped = .ok (s', f) ∧
    updateFile (asFormatter (reMatch ascii) f) 1 2 (colCallbacks (asFormatter (reMatch ascii) f) Vocab.empty) ⟨[], Vocab.empty⟩
      (fileLines (textOf (cooRows.map Row.text))) = .ok d' ∧
    cell d'.mtx "a/D".toList "b/N".toList ≠ (((sections cooRows).map (fun xs => nearby 1 2 xs "a/D".toList "b/N".toList)).sum : Int) := by
  obtain ⟨s', f, hf⟩ : ∃ s' f, construct shipped = .ok (s', f) := by
    obtain ⟨s1, f1, h1, _⟩ := shipped_ok
    exact ⟨s1, f1, h1⟩
  obtain ⟨d', h1, h2⟩ := C188_exact ascii hf (rows := cooRows) coo_fine 1 2 Vocab.empty ⟨[], Vocab.empty⟩
  refine ⟨s', f, d', hf, h1, ?_⟩
  rw [h2]
  decide +kernel

end Verif.Regex
