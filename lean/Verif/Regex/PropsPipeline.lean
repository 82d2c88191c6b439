import Verif.Regex.PropsLayout
import Verif.Cooc.PropsPpmi
import Verif.Engine.PropsProgress

/-!
# C198: from the settings and the texts of a corpus to frequencies, counts and weights
-/

namespace Verif.Regex

open Verif.Py
open Verif.Vocab.Plain (Str)
open Verif.Vocab (Vocab itemList contains)
open Verif.Items (Settings Formatter construct)
open Verif.Window (segments segsFrom segTexts)
open Verif.Matrix (Mtx entry)
open Verif.Cooc (Returns ReturnsFreq Constructed Counts pairCount totalCount Wanted weighted)

/-! ### Specification -/

/-- How often the texts of a corpus have `c` within the spans of `t`. -/
def Layout.together (a : Layout) (L R : Nat) (corpus : List (List Str)) (t c : Str) : Nat :=
  (corpus.map (fun lines => ((a.sections lines).map (fun xs => near L R xs t c)).sum)).sum

/-- How often it is counted. -/
def Layout.counted (a : Layout) (L R : Nat) (corpus : List (List Str)) (t c : Str) : Nat :=
  (corpus.map (fun lines => ((a.sections lines).map (fun xs => nearCounted L R xs t c)).sum)).sum

/-- How many lines of the corpus have the type. -/
def Layout.freq (a : Layout) (corpus : List (List Str)) (t : Str) : Nat :=
  (corpus.map (fun lines => lines.countP (fun l => decide ((a.item l).map Prod.fst = some t)))).sum

/-- The files of a corpus as the handlers see them. -/
def filesOf (corpus : List (List Str)) : List (List Str) := corpus.map (fun lines => fileLines (textOf lines))

/-! ### Calls return -/

section
variable {ℓ μ κ : Type} [LinearOrder κ]

open Verif.Corpus (itemFreqFile)
open Verif.Engine (C02_completes C01_returns exec start perJob)

/-- Every call of `build_col_freq` can return. -/
theorem returns_some (f : Verif.Corpus.Formatter ℓ μ κ) (L R : Nat) {rowv colv : Vocab κ} (hrw : Constructed rowv) (hc : Constructed colv)
    (files : List (List ℓ)) : ∃ res, Returns f L R rowv colv files res := by
  obtain ⟨as, s, h1, h2, h3, _⟩ := C02_completes (Verif.Cooc.colProg f L R rowv colv) 1 le_rfl files [] _ (by intro i; simp) rfl
  obtain ⟨res, h4, _⟩ := Verif.Cooc.C04_matrix f L R rowv colv hrw hc 1 le_rfl files _ s h1 h2 h3
  exact ⟨res, 1, _, s, le_rfl, h1, h2, h3, h4⟩

/-- Every call of `build_item_freq` can return. -/
theorem returnsFreq_some (f : Verif.Corpus.Formatter ℓ μ κ) (files : List (List ℓ)) : ∃ v, ReturnsFreq f files v := by
  obtain ⟨as, s, h1, h2, h3⟩ := Verif.Engine.completable (perJob (itemFreqFile f)) _ (start (perJob (itemFreqFile f)) 1 files) le_rfl
  obtain ⟨h4, rs, h5⟩ := C01_returns f 1 le_rfl files as s h1 h2 h3
  exact ⟨_, 1, as, s, rs, h2, h4, h5, rfl⟩

end

/-! ### Proof -/

section
variable (u : Tables) {s s' : Settings} {f : Formatter} {a : Layout}

theorem pairCount_text (hf : construct s = .ok (s', f)) (hd : Describes s a) {lines : List Str} (hl : ∀ l ∈ lines, Fine l) (L R : Nat)
    (t c : Str) :
    pairCount (asFormatter (reMatch u) f) L R (fileLines (textOf lines)) t c =
      ((a.sections lines).map (fun xs => nearCounted L R xs t c)).sum := by
  unfold pairCount
  rw [sum_pairs]
  have hseg : segTexts (asFormatter (reMatch u) f) lines = (segsFrom (asFormatter (reMatch u) f) [] 0 lines).map (List.map Prod.fst) := by
    unfold segTexts segments segsFrom
    congr 1
    generalize List.map _ _ = l
    cases l <;> rfl
  rw [fileLines_text hl, hseg, layout_segs u hf hd hl [] 0]
  have : (a.sections lines).modifyHead (([] : List (Str × Str)) ++ ·) = a.sections lines := by cases a.sections lines <;> rfl
  rw [List.map_nil, this]

theorem totalCount_text (hf : construct s = .ok (s', f)) (hd : Describes s a) {corpus : List (List Str)}
    (hl : ∀ lines ∈ corpus, ∀ l ∈ lines, Fine l) (L R : Nat) (rowv colv : Vocab Str) (t c : Str) :
    totalCount (asFormatter (reMatch u) f) L R rowv colv (filesOf corpus) t c =
      if Wanted rowv colv t c then a.counted L R corpus t c else 0 := by
  unfold totalCount
  refine if_congr Iff.rfl ?_ rfl
  unfold filesOf Layout.counted
  rw [List.map_map]
  congr 1
  exact List.map_congr_left fun lines hm => pairCount_text u hf hd (hl lines hm) L R t c

theorem counted_together (a : Layout) {L R : Nat} {corpus : List (List Str)}
    (hsec : ∀ lines ∈ corpus, ∀ xs ∈ a.sections lines, xs.length ≤ 1 ∨ R < xs.length) (t c : Str) :
    a.counted L R corpus t c = a.together L R corpus t c := by
  unfold Layout.counted Layout.together
  congr 1
  refine List.map_congr_left fun lines hm => ?_
  congr 1
  refine List.map_congr_left fun xs hx => ?_
  unfold nearCounted near
  congr 1
  refine Finset.filter_congr fun p hp => ?_
  simp only [Finset.mem_product, Finset.mem_range] at hp
  have := hsec lines hm xs hx
  constructor
  · rintro ⟨_, r⟩; exact r
  · rintro ⟨r1, r⟩
    exact ⟨fun h => by rcases this with h' | h' <;> omega, r1, r⟩

/-- **C198** for frequencies: for every format of columns, every corpus and every run of the processes, the frequency list has
exactly the types of the texts, each with the number of lines that have it. -/
theorem C198_frequency (hf : construct s = .ok (s', f)) (hd : Describes s a) {corpus : List (List Str)}
    (hl : ∀ lines ∈ corpus, ∀ l ∈ lines, Fine l) {v : Vocab Str} (h : ReturnsFreq (asFormatter (reMatch u) f) (filesOf corpus) v)
    (t : Str) : v.freq.get? t = if 0 < a.freq corpus t then some (a.freq corpus t : Int) else none := by
  obtain ⟨W, as, st, rs, h1, h2, h3, rfl⟩ := h
  have e := Verif.Engine.C01_freq_list _ W _ as st rs h1 h2 h3 t
  have hs : ((filesOf corpus).map (Verif.Corpus.occurrences (asFormatter (reMatch u) f) t)).sum = a.freq corpus t := by
    unfold filesOf Layout.freq
    rw [List.map_map]
    congr 1
    exact List.map_congr_left fun lines hm => (C193_frequency u hf hd (hl lines hm) t).1
  simp only [hs] at e
  exact e

/-- **C198**, the matrix of counts and its weights, for all corpora: the matrix has for every asked pair the number of counted
neighbours in the texts, and its weights are those of the measure for these counts. -/
theorem C198_exact (hf : construct s = .ok (s', f)) (hd : Describes s a) {corpus : List (List Str)}
    (hl : ∀ lines ∈ corpus, ∀ l ∈ lines, Fine l) {L R : Nat} {rowv colv : Vocab Str} (hrw : Constructed rowv) (hc : Constructed colv)
    {res : Option (Mtx Str Int)} (h : Returns (asFormatter (reMatch u) f) L R rowv colv (filesOf corpus) res) :
    (res = none ↔ ∀ t c, Wanted rowv colv t c → a.counted L R corpus t c = 0) ∧
    ∀ m, res = some m → m.rows = itemList rowv ∧ (∀ t c, entry m t c = if Wanted rowv colv t c then (a.counted L R corpus t c : Int) else 0) ∧
    (m.rows.length ≠ 1 → m.cols.length ≠ 1 → ∀ k : Counts Str,
      k = ⟨fun t c => if Wanted rowv colv t c then a.counted L R corpus t c else 0, m.rows, m.cols⟩ →
      ∃ w, weighted m "ppmi" = .ok w ∧ w.rows = m.rows ∧ w.cols = m.cols ∧ ∀ t ∈ m.rows, ∀ c ∈ m.cols,
        (k.pair t c = 0 → entry w t c = 0) ∧
        (0 < k.pair t c → |entry w t c - k.ppmi t c| ≤ Assoc.slip ∧ (k.row t * k.col c ≠ k.all → entry w t c = k.ppmi t c))) := by
  have hi := h.isResult hrw hc
  have htot : ∀ t c, totalCount (asFormatter (reMatch u) f) L R rowv colv (filesOf corpus) t c =
      if Wanted rowv colv t c then a.counted L R corpus t c else 0 := fun t c => totalCount_text u hf hd hl L R rowv colv t c
  cases res with
  | none =>
    refine ⟨⟨fun _ t c hw => ?_, fun _ => rfl⟩, fun m hm => nomatch hm⟩
    have := hi t c
    rw [htot, if_pos hw] at this
    exact this
  | some m =>
    obtain ⟨hi, t0, c0, hpos⟩ := hi
    refine ⟨⟨fun hn => (nomatch hn), fun hz => ?_⟩, fun m' hm => ?_⟩
    · rw [htot] at hpos
      split at hpos
      · next hw => rw [hz t0 c0 hw] at hpos; exact absurd hpos (lt_irrefl _)
      · exact absurd hpos (lt_irrefl _)
    · cases hm
      refine ⟨hi.rows, fun t c => ?_, fun h1 h2 k hk => ?_⟩
      · rw [hi.entry, htot]
        split <;> rfl
      · have e : k = ⟨totalCount (asFormatter (reMatch u) f) L R rowv colv (filesOf corpus), m.rows, m.cols⟩ := by
          rw [hk]
          congr 1
          funext t c
          exact (htot t c).symm
        obtain ⟨w, hw, hr, hcl, hv⟩ := Verif.Cooc.C191_exact hrw hc h h1 h2 e
        exact ⟨w, hw, hr, hcl, fun t ht c hc => ⟨(hv t ht c hc).1, fun hp => ((hv t ht c hc).2 hp).2⟩⟩

/-- **C198** (partial): for every format of columns, every corpus, all vocabularies and every run of the processes, the matrix has for
every asked pair how often the texts have the collocate within the spans of the type, and its weights are the positive pointwise mutual
information of these numbers (up to about `1e-10`).  Missing: sections of 2 to `R` items (`C198_false`), expected frequencies of 1 (`C191_false`)
and weights of matrices with one row or column (`C191_single`). -/
theorem C198_partial (hf : construct s = .ok (s', f)) (hd : Describes s a) {corpus : List (List Str)}
    (hl : ∀ lines ∈ corpus, ∀ l ∈ lines, Fine l) {L R : Nat}
    (hsec : ∀ lines ∈ corpus, ∀ xs ∈ a.sections lines, xs.length ≤ 1 ∨ R < xs.length)
    {rowv colv : Vocab Str} (hrw : Constructed rowv) (hc : Constructed colv)
    {res : Option (Mtx Str Int)} (h : Returns (asFormatter (reMatch u) f) L R rowv colv (filesOf corpus) res) :
    (res = none ↔ ∀ t c, Wanted rowv colv t c → a.together L R corpus t c = 0) ∧
    ∀ m, res = some m → m.rows = itemList rowv ∧ (∀ t c, entry m t c = if Wanted rowv colv t c then (a.together L R corpus t c : Int) else 0) ∧
    (m.rows.length ≠ 1 → m.cols.length ≠ 1 → ∀ k : Counts Str,
      k = ⟨fun t c => if Wanted rowv colv t c then a.together L R corpus t c else 0, m.rows, m.cols⟩ →
      ∃ w, weighted m "ppmi" = .ok w ∧ w.rows = m.rows ∧ w.cols = m.cols ∧ ∀ t ∈ m.rows, ∀ c ∈ m.cols,
        (k.pair t c = 0 → entry w t c = 0) ∧
        (0 < k.pair t c → |entry w t c - k.ppmi t c| ≤ Assoc.slip ∧ (k.row t * k.col c ≠ k.all → entry w t c = k.ppmi t c))) := by
  have e : a.counted L R corpus = a.together L R corpus := by
    funext t c
    exact counted_together a hsec t c
  have := C198_exact u hf hd hl hrw hc h
  rw [e] at this
  exact this

end

/-- The words of the corpus of the tutorial format. -/
def tutorialRows : Vocab Str := ⟨[("girl/N".toList, 1), ("the/D".toList, 1)], true, false⟩

theorem tutorial_corpus_fine : ∀ lines ∈ [tutorialLines], ∀ l ∈ lines, Fine l := by
  intro lines hl
  rw [List.mem_singleton.1 hl]
  exact tutorial_fine

theorem tutorialRows_constructed : Constructed tutorialRows := ⟨by unfold Dict.WF; decide +kernel, rfl⟩

theorem empty_constructed : Constructed (Vocab.empty : Vocab Str) := ⟨by unfold Dict.WF; decide, rfl⟩

/-- The hypotheses of the theorems hold for a corpus in the format of the tutorial, and there is something to count. -/
example : ∃ s' f v m, construct tutorial = .ok (s', f) ∧ ReturnsFreq (asFormatter (reMatch ascii) f) (filesOf [tutorialLines]) v ∧
    Returns (asFormatter (reMatch ascii) f) 4 1 tutorialRows Vocab.empty (filesOf [tutorialLines]) (some m) ∧
    v.freq.get? "girl/N".toList = some 1 ∧ entry m "girl/N".toList "the/D".toList = 1 ∧
    (∀ lines ∈ [tutorialLines], ∀ xs ∈ tutorialLayout.sections lines, xs.length ≤ 1 ∨ 1 < xs.length) := by
  obtain ⟨s', f, hf⟩ := tutorial_describes.1
  obtain ⟨v, hv⟩ := returnsFreq_some (asFormatter (reMatch ascii) f) (filesOf [tutorialLines])
  obtain ⟨res, hr⟩ := returns_some (asFormatter (reMatch ascii) f) 4 1 tutorialRows_constructed empty_constructed (filesOf [tutorialLines])
  have hx := C198_exact ascii hf tutorial_describes.2 tutorial_corpus_fine tutorialRows_constructed empty_constructed hr
  have hw : Wanted tutorialRows Vocab.empty "girl/N".toList "the/D".toList := by unfold Wanted; decide +kernel
  have hc : tutorialLayout.counted 4 1 [tutorialLines] "girl/N".toList "the/D".toList = 1 := by decide +kernel
  cases res with
  | none =>
    have := hx.1.1 rfl _ _ hw
    rw [hc] at this
    exact absurd this (by decide)
  | some m =>
    refine ⟨s', f, v, m, hf, hv, hr, ?_, ?_, by decide +kernel⟩
    · rw [C198_frequency ascii hf tutorial_describes.2 tutorial_corpus_fine hv]
      have : tutorialLayout.freq [tutorialLines] "girl/N".toList = 1 := by decide +kernel
      rw [this]
      rfl
    · rw [(hx.2 m rfl).2.1, if_pos hw, hc]
      rfl

/-- **C198 is false** as it stands: with the spans of the tutorial (4 and 4), whatever the processes do, the matrix has no count for
the only neighbour of the last word of the sentence. -/
theorem C198_false : ∃ s' f m, construct tutorial = .ok (s', f) ∧
    Returns (asFormatter (reMatch ascii) f) 4 4 tutorialRows Vocab.empty (filesOf [tutorialLines]) (some m) ∧
    entry m "girl/N".toList "the/D".toList = 0 ∧ entry m "the/D".toList "girl/N".toList = 1 ∧
    tutorialLayout.together 4 4 [tutorialLines] "girl/N".toList "the/D".toList = 1 := by
  obtain ⟨s', f, hf⟩ := tutorial_describes.1
  obtain ⟨res, hr⟩ := returns_some (asFormatter (reMatch ascii) f) 4 4 tutorialRows_constructed empty_constructed (filesOf [tutorialLines])
  have hx := C198_exact ascii hf tutorial_describes.2 tutorial_corpus_fine tutorialRows_constructed empty_constructed hr
  have hw : Wanted tutorialRows Vocab.empty "girl/N".toList "the/D".toList := by unfold Wanted; decide +kernel
  have hw' : Wanted tutorialRows Vocab.empty "the/D".toList "girl/N".toList := by unfold Wanted; decide +kernel
  have hc : tutorialLayout.counted 4 4 [tutorialLines] "girl/N".toList "the/D".toList = 0 := by decide +kernel
  have hc' : tutorialLayout.counted 4 4 [tutorialLines] "the/D".toList "girl/N".toList = 1 := by decide +kernel
  cases res with
  | none =>
    have := hx.1.1 rfl _ _ hw'
    rw [hc'] at this
    exact absurd this (by decide)
  | some m =>
    refine ⟨s', f, m, hf, hr, ?_, ?_, by decide +kernel⟩
    · rw [(hx.2 m rfl).2.1, if_pos hw, hc]
      rfl
    · rw [(hx.2 m rfl).2.1, if_pos hw', hc']
      rfl

end Verif.Regex
