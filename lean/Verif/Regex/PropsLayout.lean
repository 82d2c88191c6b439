import Verif.Regex.PropsCooc
import Verif.Regex.PropsClasses

/-!
# C193: from the text of a corpus in any format of columns to frequencies and co-occurrence counts
-/

namespace Verif.Regex

open Verif.Py
open Verif.Vocab.Plain (Str isSpace isBreak strip)
open Verif.Vocab (Vocab)
open Verif.Items (Settings Formatter construct readLine matchLine separatorLine getType getColloc split join ColumnsOf ColumnAt Reads Rendered)
open Verif.Window (segments segsFrom segTexts updateFile colCallbacks ColData cell passes)

/-! ### Specification -/

/-- The format of a corpus: the columns of its lines, the names of those that are kept, the columns that make up a type and a
collocate, the text of a line that ends a section, and whether a line must be that text or only begin with it. -/
structure Layout where
  cols : List Col
  names : List Str
  type : List Str
  colloc : List Str
  close : Str
  whole : Bool

/-- The parts of a record, joined by `/`. -/
def pick (names vals : List Str) (parts : List Str) : Str := join '/' (parts.map (fun n => (vals[names.idxOf n]?).getD []))

/-- The type and the collocate of a line, if its columns fit. -/
def Layout.item (a : Layout) (line : Str) : Option (Str × Str) :=
  (expected a.cols (split '\t' line)).map (fun e => (pick a.names e.2 a.type, pick a.names e.2 a.colloc))

/-- Does a line end a section? -/
def Layout.ends (a : Layout) (line : Str) : Prop := if a.whole then line = a.close else a.close <+: line

instance (a : Layout) (line : Str) : Decidable (a.ends line) := by unfold Layout.ends; infer_instance

/-- The sections of a corpus: the items between two lines that end a section; other lines are passed over. -/
def Layout.sections (a : Layout) : List Str → List (List (Str × Str))
  | [] => [[]]
  | l :: ls =>
    match a.item l with
    | some x => (a.sections ls).modifyHead (x :: ·)
    | none => if a.ends l then [] :: a.sections ls else a.sections ls

/-- How often `c` stands within the spans of `t` in a section. -/
def near (L R : Nat) (xs : List (Str × Str)) (t c : Str) : Nat :=
  ((Finset.range xs.length ×ˢ Finset.range xs.length).filter (fun p : Nat × Nat =>
    p.1 ≠ p.2 ∧ p.1 ≤ p.2 + L ∧ p.2 ≤ p.1 + R ∧ xs[p.1]?.map Prod.fst = some t ∧ xs[p.2]?.map Prod.snd = some c)).card

/-- What is counted in a section: the last item of a section of at most `R` items is no target. -/
def nearCounted (L R : Nat) (xs : List (Str × Str)) (t c : Str) : Nat :=
  ((Finset.range xs.length ×ˢ Finset.range xs.length).filter (fun p : Nat × Nat =>
    (xs.length ≤ R → p.1 + 1 < xs.length) ∧ p.1 ≠ p.2 ∧ p.1 ≤ p.2 + L ∧ p.2 ≤ p.1 + R ∧
    xs[p.1]?.map Prod.fst = some t ∧ xs[p.2]?.map Prod.snd = some c)).card

/-- Settings that describe a format: the line machine has its columns (the tab in either spelling), every kept column has a
name, and the separator is the text that ends a section, alone or between `^` and `$`. -/
structure Describes (s : Settings) (a : Layout) : Prop where
  machine : ∃ tab, IsTab tab ∧ Dict.get? s "line-machine" = some (machine tab a.cols)
  cols : a.cols ≠ []
  good : ∀ k ∈ a.cols, k.Good
  names : ColumnsOf s a.names
  nodup : a.names.Nodup
  kept : a.names.length = groups a.cols
  type : ∃ fmt, Dict.get? s "type" = some fmt ∧ split '/' fmt = a.type
  colloc : ∃ fmt, Dict.get? s "colloc" = some fmt ∧ split '/' fmt = a.colloc
  single : Dict.get? s "boundary-detection-mechanism" = some "single".toList
  plain : ∀ c ∈ a.close, Plain c
  close : Dict.get? s "separator-line-machine" = some (if a.whole then '^' :: (a.close ++ ['$']) else a.close)

/-! ### Proof -/

theorem expected_length {ks : List Col} : ∀ {cs : List Str} {e : Str × List Str}, expected ks cs = some e → e.2.length = groups ks := by
  induction ks with
  | nil => intro cs e h; cases cs <;> simp [expected] at h
  | cons k ks ih =>
    intro cs e h
    have hk : ∀ c, (k.kept c).length = k.groups := by intro c; cases k <;> rfl
    cases cs with
    | nil => cases ks <;> simp [expected] at h
    | cons c cs =>
      cases ks with
      | nil =>
        rw [expected] at h
        split at h
        · cases h
          simp [groups, hk]
        · cases h
      | cons k' ks =>
        have hexp : expected (k :: k' :: ks) (c :: cs) =
            if k.fits c then (expected (k' :: ks) cs).map (fun e => (c ++ '\t' :: e.1, k.kept c ++ e.2)) else none := by
          rw [expected]; simp
        rw [hexp] at h
        split at h
        · obtain ⟨e', he, rfl⟩ := Option.map_eq_some_iff.1 h
          rw [List.length_append, ih he, hk]
          simp [groups]
        · cases h

theorem columnAt_idxOf {cols : List Str} (hn : cols.Nodup) {c : Str} (hc : c ∈ cols) : ColumnAt cols c (cols.idxOf c) := by
  have hlt := List.idxOf_lt_length_iff.2 hc
  refine ⟨by rw [List.getElem?_eq_getElem hlt, List.getElem_idxOf], fun j hj he => ?_⟩
  obtain ⟨hl, he⟩ := List.getElem?_eq_some_iff.1 he
  have : cols[j] = cols[cols.idxOf c] := by rw [he, List.getElem_idxOf]
  have := (List.Nodup.getElem_inj_iff hn).1 this
  omega

theorem rendered_pick {a : Layout} (hn : a.names.Nodup) {whole : Str} {vals : List Str} (hl : a.names.length = vals.length)
    {parts : List Str} (hp : ∀ c ∈ parts, c ∈ a.names) :
    Rendered a.names (some whole :: vals.map some) parts [] (pick a.names vals parts) := by
  refine ⟨parts.map (fun n => (vals[a.names.idxOf n]?).getD []), ?_, by rw [List.append_nil]; rfl⟩
  induction parts with
  | nil => exact .nil
  | cons p ps ih =>
    refine .cons ⟨_, columnAt_idxOf hn (hp p (List.mem_cons_self ..)), ?_⟩ (ih fun c hc => hp c (List.mem_cons_of_mem _ hc))
    have hlt := List.idxOf_lt_length_iff.2 (hp p (List.mem_cons_self ..))
    rw [List.getElem?_cons_succ, List.getElem?_map, List.getElem?_eq_getElem (hl ▸ hlt)]
    simp only [List.getElem?_eq_getElem (hl ▸ hlt), Option.map_some, Option.getD_some]

section
variable (u : Tables) {s s' : Settings} {f : Formatter} {a : Layout}

/-- The line machine of the format, on any line. -/
theorem layout_match (hf : construct s = .ok (s', f)) (hd : Describes s a) (line : Str) :
    (asFormatter (reMatch u) f).matchLine line = (expected a.cols (split '\t' line)).map (fun e => some e.1 :: e.2.map some) := by
  obtain ⟨tab, ht, hm⟩ := hd.machine
  have hlm := lineMachine_of hf hm
  simp only [asFormatter, hlm]
  exact exec_machine u ht hd.cols hd.good line

/-- The type and the collocate of a line are never refused, and they are what the columns say. -/
theorem layout_names (hf : construct s = .ok (s', f)) (hd : Describes s a) {line : Str} {e : Str × List Str}
    (he : expected a.cols (split '\t' line) = some e) :
    getType f (some e.1 :: e.2.map some) = .ok (pick a.names e.2 a.type) ∧
    getColloc f (some e.1 :: e.2.map some) = .ok (pick a.names e.2 a.colloc) := by
  obtain ⟨c1, c2, _⟩ := Verif.Items.C84_columns s s' f hf a.names hd.names (some e.1 :: e.2.map some)
  obtain ⟨r1, r2, _⟩ := Verif.Items.C84_refused s s' f hf a.names hd.names
  obtain ⟨tf, ht, ht'⟩ := hd.type
  obtain ⟨cf, hc, hc'⟩ := hd.colloc
  have hl : a.names.length = e.2.length := by rw [hd.kept, expected_length he]
  refine ⟨(c1 _).2 ⟨tf, ht, ?_⟩, (c2 _).2 ⟨cf, .inl hc, ?_⟩⟩
  · rw [ht']; exact rendered_pick hd.nodup hl (ht' ▸ r1 tf ht)
  · rw [hc']; exact rendered_pick hd.nodup hl (hc' ▸ r2 cf hc)

/-- Which lines end a section. -/
theorem layout_sep (hf : construct s = .ok (s', f)) (hd : Describes s a) {line : Str} (hl : Fine line)
    (hm : (asFormatter (reMatch u) f).matchLine line = none) :
    (asFormatter (reMatch u) f).isSep line = true ↔ a.ends line := by
  obtain ⟨tab, ht, hlm⟩ := hd.machine
  have hm' : reMatch u (machine tab a.cols) line = none := by
    simp only [asFormatter, lineMachine_of hf hlm] at hm
    exact hm
  have hread : readLine (reMatch u) f line = .ok .boundary ↔ (asFormatter (reMatch u) f).isSep line = true := by
    unfold readLine matchLine separatorLine
    rw [lineMachine_of hf hlm]
    simp only [Verif.Items.attr, bind, Except.bind, pure, Except.pure, hm']
    simp only [asFormatter]
    cases f.single with
    | none => simp
    | some sg => simp [Option.isSome_iff_ne_none]
  rw [← hread]
  unfold Layout.ends
  have hclose := hd.close
  cases hw : a.whole with
  | false =>
    rw [hw] at hclose
    rw [if_neg (by simp), C183_text u hf hd.single hlm hd.plain hclose]
    exact ⟨fun h => h.2, fun h => ⟨hm', h⟩⟩
  | true =>
    rw [hw] at hclose
    rw [if_pos rfl]
    obtain ⟨sep, h1, _, h2, _, _⟩ := Verif.Items.C85_partial s s' f (reMatch u) hf hd.single _ hlm line
    rw [hclose] at h1
    simp only [if_true, Option.some.injEq] at h1
    rw [h2, ← h1, reMatch_exact u hd.plain]
    constructor
    · rintro ⟨_, h3⟩
      split at h3
      · rename_i h4
        rcases h4 with h4 | h4
        · exact h4
        · exfalso
          have := hl.1 '\n' (by rw [h4]; simp)
          exact absurd this (by decide)
      · simp at h3
    · intro h3
      exact ⟨hm', by rw [if_pos (.inl h3)]; rfl⟩

theorem layout_sections_ne (a : Layout) (ls : List Str) : a.sections ls ≠ [] := by
  induction ls with
  | nil => simp [Layout.sections]
  | cons x xs ih =>
    rw [Layout.sections]
    split
    · simpa using ih
    · split
      · simp
      · exact ih

theorem layout_segs (hf : construct s = .ok (s', f)) (hd : Describes s a) {lines : List Str} (hl : ∀ l ∈ lines, Fine l)
    (cur : List (Verif.Items.Match × Nat)) (lid : Nat) :
    ((segsFrom (asFormatter (reMatch u) f) cur lid lines).map (List.map Prod.fst)).map
        (List.map (fun m => ((asFormatter (reMatch u) f).getType m, (asFormatter (reMatch u) f).getColloc m))) =
      (a.sections lines).modifyHead
        (cur.map (fun m => ((asFormatter (reMatch u) f).getType m.1, (asFormatter (reMatch u) f).getColloc m.1)) ++ ·) := by
  induction lines generalizing cur lid with
  | nil =>
    rw [Verif.Window.segsFrom_nil]
    simp [Layout.sections, Function.comp_def]
  | cons l ls ih =>
    have ih := fun cur lid => ih (fun x hx => hl x (List.mem_cons_of_mem _ hx)) cur lid
    have hne := layout_sections_ne a ls
    rw [Verif.Window.segsFrom_cons, Layout.sections]
    cases he : expected a.cols (split '\t' l) with
    | some e =>
      obtain ⟨h1, h2⟩ := layout_names hf hd he
      have hm : (asFormatter (reMatch u) f).matchLine l = some (some e.1 :: e.2.map some) := by rw [layout_match u hf hd, he]; rfl
      have hi : a.item l = some (pick a.names e.2 a.type, pick a.names e.2 a.colloc) := by unfold Layout.item; rw [he]; rfl
      rw [hm, hi]
      simp only
      rw [ih]
      have g1 : (asFormatter (reMatch u) f).getType (some e.1 :: e.2.map some) = pick a.names e.2 a.type := by simp only [asFormatter, h1]
      have g2 : (asFormatter (reMatch u) f).getColloc (some e.1 :: e.2.map some) = pick a.names e.2 a.colloc := by simp only [asFormatter, h2]
      cases hs : a.sections ls with
      | nil => exact absurd hs hne
      | cons x xs => simp [g1, g2]
    | none =>
      have hm : (asFormatter (reMatch u) f).matchLine l = none := by rw [layout_match u hf hd, he]; rfl
      have hi : a.item l = none := by unfold Layout.item; rw [he]; rfl
      have hsep := layout_sep u hf hd (hl l (List.mem_cons_self ..)) hm
      rw [hm, hi]
      simp only
      by_cases hb : a.ends l
      · rw [if_pos (hsep.2 hb), if_pos hb, List.map_cons, List.map_cons, ih]
        cases hs : a.sections ls with
        | nil => exact absurd hs hne
        | cons x xs => simp [Function.comp_def]
      · rw [if_neg (fun h => hb (hsep.1 h)), if_neg hb, ih]

/-- **C193** for frequencies: whatever the columns of the corpus and the format of a type are, the frequency of a type in a file is
the number of lines of its text whose columns fit and give that type; no line is refused. -/
theorem C193_frequency (hf : construct s = .ok (s', f)) (hd : Describes s a) {lines : List Str} (hl : ∀ l ∈ lines, Fine l) (k : Str) :
    Verif.Corpus.occurrences (asFormatter (reMatch u) f) k (fileLines (textOf lines)) =
      lines.countP (fun l => decide ((a.item l).map Prod.fst = some k)) ∧
    ∀ l m, (asFormatter (reMatch u) f).matchLine l = some m → ∃ t c, a.item l = some (t, c) ∧ getType f m = .ok t ∧ getColloc f m = .ok c := by
  constructor
  · rw [fileLines_text hl, Verif.Corpus.occurrences]
    refine List.countP_congr fun l _ => ?_
    rw [layout_match u hf hd]
    unfold Layout.item
    cases he : expected a.cols (split '\t' l) with
    | none => simp
    | some e => simp only [Option.map_some, asFormatter, (layout_names hf hd he).1, Option.some.injEq]
  · intro l m hm
    rw [layout_match u hf hd] at hm
    obtain ⟨e, he, rfl⟩ := Option.map_eq_some_iff.1 hm
    exact ⟨_, _, by unfold Layout.item; rw [he]; rfl, layout_names hf hd he⟩

theorem sum_pairs {μ : Type} (gt gc : μ → Str) (L R : Nat) (t c : Str) (ms : List (List μ)) :
    (ms.map (fun xs => ((Finset.range xs.length ×ˢ Finset.range xs.length).filter (fun p : Nat × Nat =>
          (xs.length ≤ R → p.1 + 1 < xs.length) ∧ p.1 ≠ p.2 ∧ p.1 ≤ p.2 + L ∧ p.2 ≤ p.1 + R ∧
          xs[p.1]?.map gt = some t ∧ xs[p.2]?.map gc = some c)).card)).sum =
    ((ms.map (List.map (fun m => (gt m, gc m)))).map (fun xs => nearCounted L R xs t c)).sum := by
  rw [List.map_map]
  congr 1
  refine List.map_congr_left fun xs _ => ?_
  simp only [Function.comp_apply]
  unfold nearCounted
  rw [List.length_map]
  congr 1
  refine Finset.filter_congr fun p _ => ?_
  rw [List.getElem?_map, List.getElem?_map, Option.map_map, Option.map_map]
  rfl

/-- **C193** for co-occurrences, exact: what the text of a file adds to the matrix. -/
theorem C193_exact (hf : construct s = .ok (s', f)) (hd : Describes s a) {lines : List Str} (hl : ∀ l ∈ lines, Fine l) (L R : Nat)
    (rowv : Vocab Str) (d : ColData Str) :
    ∃ d', updateFile (asFormatter (reMatch u) f) L R (colCallbacks (asFormatter (reMatch u) f) rowv) d
        (fileLines (textOf lines)) = .ok d' ∧
      ∀ t c, cell d'.mtx t c = cell d.mtx t c +
        if passes rowv t ∧ passes d.colv c then (((a.sections lines).map (fun xs => nearCounted L R xs t c)).sum : Int) else 0 := by
  obtain ⟨d', h1, h2⟩ := Verif.Window.C10_exact (asFormatter (reMatch u) f) L R rowv d (fileLines (textOf lines))
  refine ⟨d', h1, fun t c => ?_⟩
  rw [h2 t c, sum_pairs]
  have hseg : segTexts (asFormatter (reMatch u) f) lines = (segsFrom (asFormatter (reMatch u) f) [] 0 lines).map (List.map Prod.fst) := by
    unfold segTexts segments segsFrom
    congr 1
    generalize List.map _ _ = l
    cases l <;> rfl
  rw [fileLines_text hl, hseg, layout_segs u hf hd hl [] 0]
  have : (a.sections lines).modifyHead (([] : List (Str × Str)) ++ ·) = a.sections lines := by cases a.sections lines <;> rfl
  rw [List.map_nil, this]

/-- **C193** for co-occurrences (partial): the matrix counts how often the collocate stands within the spans of the type, between
two lines that end a section.  Missing: sections of 2 to `R` items (`C10_false`). -/
theorem C193_partial (hf : construct s = .ok (s', f)) (hd : Describes s a) {lines : List Str} (hl : ∀ l ∈ lines, Fine l) (L R : Nat)
    (hsec : ∀ xs ∈ a.sections lines, xs.length ≤ 1 ∨ R < xs.length) (rowv : Vocab Str) (d : ColData Str) :
    ∃ d', updateFile (asFormatter (reMatch u) f) L R (colCallbacks (asFormatter (reMatch u) f) rowv) d
        (fileLines (textOf lines)) = .ok d' ∧
      ∀ t c, cell d'.mtx t c = cell d.mtx t c +
        if passes rowv t ∧ passes d.colv c then (((a.sections lines).map (fun xs => near L R xs t c)).sum : Int) else 0 := by
  obtain ⟨d', h1, h2⟩ := C193_exact u hf hd hl L R rowv d
  refine ⟨d', h1, fun t c => ?_⟩
  rw [h2 t c]
  have : (a.sections lines).map (fun xs => nearCounted L R xs t c) = (a.sections lines).map (fun xs => near L R xs t c) := by
    refine List.map_congr_left fun xs hx => ?_
    unfold nearCounted near
    congr 1
    refine Finset.filter_congr fun p hp => ?_
    simp only [Finset.mem_product, Finset.mem_range] at hp
    have := hsec xs hx
    constructor
    · rintro ⟨_, r⟩; exact r
    · rintro ⟨r1, r⟩
      exact ⟨fun h => by rcases this with h' | h' <;> omega, r1, r⟩
  rw [this]

end

/-! ### The format of the tutorial -/

/-- The settings of the tutorial: `/repo/docs/tutorials/all-in-one.ipynb`, cells 16, 18 and 24, over those of
`/repo/nephosem/config.ini:13-25`. -/
def tutorial : Settings :=
  [("line-machine", "([^\t]+)\t([^\t])[^\t]*\t([^\t]+)\t([^\t]+)\t([^\t]+)\t([^\t]+)".toList),
   ("global-columns", "word,pos,lemma,id,head,deprel".toList), ("line-format", "word,pos,lemma".toList),
   ("type", "lemma/pos".toList), ("colloc", "lemma/pos".toList), ("token", "lemma/pos/fid/lid".toList),
   ("boundary-detection-mechanism", "single".toList), ("separator-line-machine", "</s>".toList),
   ("single-boundary-machine", "</artikel>".toList)]

/-- The format they describe: six columns, of the part of speech only the first letter. -/
def tutorialLayout : Layout :=
  ⟨[.keep, .first, .keep, .keep, .keep, .keep], ["word".toList, "pos".toList, "lemma".toList, "id".toList, "head".toList, "deprel".toList],
    ["lemma".toList, "pos".toList], ["lemma".toList, "pos".toList], "</s>".toList, false⟩

theorem tutorial_describes : (∃ s' f, construct tutorial = .ok (s', f)) ∧ Describes tutorial tutorialLayout := by
  refine ⟨⟨_, _, rfl⟩, ⟨['\t'], .inl rfl, by decide +kernel⟩, by decide, ?_, ⟨_, rfl, .inl rfl⟩, by decide, by decide,
    ⟨_, rfl, by decide +kernel⟩, ⟨_, rfl, by decide +kernel⟩, rfl, ?_, rfl⟩
  · intro k hk
    simp only [tutorialLayout, List.mem_cons, List.not_mem_nil, or_false] at hk
    rcases hk with rfl | rfl | rfl | rfl | rfl | rfl <;> trivial
  · intro c hc
    simp only [tutorialLayout] at hc
    have : c ∈ ['<', '/', 's', '>'] := hc
    simp only [List.mem_cons, List.not_mem_nil, or_false] at this
    rcases this with rfl | rfl | rfl | rfl <;> decide

/-- A corpus in that format: a tag, two words, the end of the sentence. -/
def tutorialLines : List Str :=
  ["<s>".toList, "The\tDT\tthe\t1\t2\tdet".toList, "girls\tNNS\tgirl\t2\t3\tnsubj".toList, "</s>".toList]

theorem tutorial_fine : ∀ l ∈ tutorialLines, Fine l := by
  intro l hl
  simp only [tutorialLines, List.mem_cons, List.not_mem_nil, or_false] at hl
  rcases hl with rfl | rfl | rfl | rfl
  · exact ⟨by decide, .inr ⟨⟨'<', rfl, by decide⟩, ⟨'>', rfl, by decide⟩⟩⟩
  · exact ⟨by decide, .inr ⟨⟨'T', rfl, by decide⟩, ⟨'t', rfl, by decide⟩⟩⟩
  · exact ⟨by decide, .inr ⟨⟨'g', rfl, by decide⟩, ⟨'j', rfl, by decide⟩⟩⟩
  · exact ⟨by decide, .inr ⟨⟨'<', rfl, by decide⟩, ⟨'>', rfl, by decide⟩⟩⟩

example : tutorialLayout.sections tutorialLines = [[("the/D".toList, "the/D".toList), ("girl/N".toList, "girl/N".toList)], []] ∧
    near 4 1 [("the/D".toList, "the/D".toList), ("girl/N".toList, "girl/N".toList)] "girl/N".toList "the/D".toList = 1 ∧
    (∀ xs ∈ tutorialLayout.sections tutorialLines, xs.length ≤ 1 ∨ 1 < xs.length) ∧
    tutorialLines.countP (fun l => decide ((tutorialLayout.item l).map Prod.fst = some "girl/N".toList)) = 1 :=
  ⟨by decide +kernel, by decide +kernel, by decide +kernel, by decide +kernel⟩

/-- **C193 is false** as it stands: with the spans of the tutorial (4 and 4) the only neighbour of the last word of that sentence
is not counted. -/
theorem C193_false : ∃ (s' : Settings) (f : Formatter) (d' : ColData Str), construct tutorial = .ok (s', f) ∧
    updateFile (asFormatter (reMatch ascii) f) 4 4 (colCallbacks (asFormatter (reMatch ascii) f) Vocab.empty) ⟨[], Vocab.empty⟩
      (fileLines (textOf tutorialLines)) = .ok d' ∧
    cell d'.mtx "girl/N".toList "the/D".toList = 0 ∧
    ((tutorialLayout.sections tutorialLines).map (fun xs => near 4 4 xs "girl/N".toList "the/D".toList)).sum = 1 := by
  obtain ⟨s', f, hf⟩ := tutorial_describes.1
  obtain ⟨d', h1, h2⟩ := C193_exact ascii hf tutorial_describes.2 tutorial_fine 4 4 Vocab.empty ⟨[], Vocab.empty⟩
  refine ⟨s', f, d', hf, h1, ?_, by decide +kernel⟩
  rw [h2]
  decide +kernel

end Verif.Regex
