import Verif.Flow.Fit
import Verif.Cooc.Props
import Verif.Engine.Props
import Mathlib.Algebra.Order.BigOperators.Group.List

/-!
# Properties of `TypeVectorizer`: C107-C110
-/

set_option linter.unusedSectionVars false

namespace Verif.Flow
open Verif.Py Verif.Vocab Verif.Corpus Verif.Window Verif.Engine Verif.Matrix Verif.Cooc

variable {ℓ μ κ : Type} [LinearOrder κ]

/-- The type occurs in one of the files. -/
def Occurs (f : Formatter ℓ μ κ) (files : List (List ℓ)) (t : κ) : Prop :=
  ∃ file ∈ files, ∃ line ∈ file, ∃ m, f.matchLine line = some m ∧ f.getType m = t

theorem occurs_iff (f : Formatter ℓ μ κ) (files : List (List ℓ)) (t : κ) :
    Occurs f files t ↔ 0 < (files.map (occurrences f t)).sum := by
  have one : ∀ file : List ℓ, (∃ line ∈ file, ∃ m, f.matchLine line = some m ∧ f.getType m = t) ↔
      0 < occurrences f t file := by
    intro file
    unfold occurrences
    rw [List.countP_pos_iff]
    constructor
    · rintro ⟨line, hl, m, hm, ht⟩
      exact ⟨line, hl, by simp [hm, ht]⟩
    · rintro ⟨line, hl, h⟩
      cases hm : f.matchLine line with
      | none => simp [hm] at h
      | some m => simp only [hm, decide_eq_true_eq] at h; exact ⟨line, hl, m, hm, h⟩
  unfold Occurs
  constructor
  · rintro ⟨file, hf, h⟩
    have := (one file).1 h
    exact lt_of_lt_of_le this (List.single_le_sum (by simp) _ (List.mem_map.2 ⟨file, hf, rfl⟩))
  · intro h
    by_contra hn
    have : ∀ x ∈ files.map (occurrences f t), x = 0 := by
      intro x hx
      obtain ⟨file, hf, rfl⟩ := List.mem_map.1 hx
      by_contra hne
      exact hn ⟨file, hf, (one file).2 (Nat.pos_of_ne_zero hne)⟩
    rw [List.sum_eq_zero this] at h
    exact lt_irrefl _ h

/-- `fit` on the vectorizer `tv` may return `res` and leave `tv'`: there is a run of the frequency handler (if there
is no row vocabulary yet) and a run of the co-occurrence handler, with any numbers of workers and any interleavings, no
worker dying, that give it. -/
structure FitRun (f : Formatter ℓ μ κ) (L R : Nat) (tv : TypeVec κ) (files : List (List ℓ)) (tv' : TypeVec κ)
    (res : Except Matrix.Err (Option (Mtx κ Int))) : Prop where
  intro ::
  run : ∃ (W W' : Nat) (as as' : List Action) (s : State (List ℓ) Unit (Dict κ Int)) (row : Vocab κ)
    (s' : State (List ℓ) (ColData κ) (ColRes κ)), 1 ≤ W ∧ 1 ≤ W' ∧ CrashFree as ∧ CrashFree as' ∧
    (tv.row = none → exec (perJob (itemFreqFile f)) as (start (perJob (itemFreqFile f)) W files) = some s ∧ Joined s) ∧
    fitRow tv files.length s = some row ∧
    exec (colProg f L R row (fitCol tv row)) as' (start (colProg f L R row (fitCol tv row)) W' files) = some s' ∧
    Joined s' ∧ (tv', res) = fit tv row s'

/-- Every program has a complete run without deaths. -/
theorem exists_maximal {J A R : Type} (p : Prog J A R) : ∀ (n : Nat) (s : State J A R), Engine.measure s ≤ n →
    ∃ as s', CrashFree as ∧ exec p as s = some s' ∧ Maximal p s' := by
  intro n
  induction n with
  | zero =>
    intro s h
    refine ⟨[], s, by intro i; simp, rfl, ?_⟩
    intro a _
    cases hs : step p a s with
    | none => rfl
    | some s1 => have := step_measure hs; omega
  | succ n ih =>
    intro s h
    by_cases hm : Maximal p s
    · exact ⟨[], s, by intro i; simp, rfl, hm⟩
    · unfold Engine.Maximal at hm
      push Not at hm
      obtain ⟨a, ha, hne⟩ := hm
      obtain ⟨s1, hs⟩ := Option.ne_none_iff_exists'.1 hne
      obtain ⟨as, s', h1, h2, h3⟩ := ih s1 (by have := step_measure hs; omega)
      refine ⟨a :: as, s', ?_, by simp [exec, hs, h2], h3⟩
      intro i hi
      rcases List.mem_cons.1 hi with rfl | hi
      · exact ha i rfl
      · exact h1 i hi

theorem exists_run {J A R : Type} (p : Prog J A R) (W : Nat) (hW : 1 ≤ W) (files : List J) :
    ∃ as s, CrashFree as ∧ exec p as (start p W files) = some s ∧ Maximal p s ∧ Joined s := by
  obtain ⟨as, s, h1, h2, h3⟩ := exists_maximal p _ (start p W files) le_rfl
  obtain ⟨e1, _, e3⟩ := maximal_joined hW h1 h2 h3
  exact ⟨as, s, h1, h2, h3, e1, fun w hw => Or.inl (e3 w hw)⟩

/-- The runs looked at exist, whatever the vectorizer and the files. -/
theorem exists_fitRun (f : Formatter ℓ μ κ) (L R : Nat) (tv : TypeVec κ) (files : List (List ℓ)) :
    ∃ tv' res, FitRun f L R tv files tv' res := by
  obtain ⟨as, s, h1, h2, h3, h4⟩ := exists_run (perJob (itemFreqFile f)) 1 le_rfl files
  obtain ⟨_, rs, hrs⟩ := C01_returns f 1 le_rfl files as s h1 h2 h3
  have hr : ∃ row, fitRow tv files.length s = some row := by
    unfold fitRow
    cases tv.row with
    | some v => exact ⟨v, rfl⟩
    | none => exact ⟨mergeFreqs rs, by simp only [hrs, Option.map_some]⟩
  obtain ⟨row, hrow⟩ := hr
  obtain ⟨as', s', g1, g2, _, g4⟩ := exists_run (colProg f L R row (fitCol tv row)) 1 le_rfl files
  exact ⟨_, _, ⟨1, 1, as, as', s, row, s', le_rfl, le_rfl, h1, g1, fun _ => ⟨h2, h4⟩, hrow, g2, g4, rfl⟩⟩

theorem constructed_deepcopy {v : Vocab κ} (h : v.freq.WF) : Constructed (Vocab.deepcopy v) := ⟨h, rfl⟩

theorem mem_keys_mergeFreqs {f : Formatter ℓ μ κ} {W : Nat} {files : List (List ℓ)} {as : List Action}
    {s : State (List ℓ) Unit (Dict κ Int)} {rs : List (Dict κ Int)}
    (h : exec (perJob (itemFreqFile f)) as (start (perJob (itemFreqFile f)) W files) = some s)
    (hj : Joined s) (hr : readN files.length s = some rs) (t : κ) :
    t ∈ (mergeFreqs rs).freq.keys ↔ Occurs f files t := by
  rw [← Dict.get?_isSome_iff, C01_freq_list f W files as s rs h hj hr t, occurs_iff]
  simp only
  split <;> simp_all

/-- The counts of all pairs, without any vocabulary. -/
def pairTotal (f : Formatter ℓ μ κ) (L R : Nat) (files : List (List ℓ)) (t c : κ) : Nat :=
  (files.map (fun file => pairCount f L R file t c)).sum

theorem mem_segsFrom (f : Formatter ℓ μ κ) (file : List ℓ) : ∀ (cur : List (μ × Nat)) (lid : Nat),
    ∀ xs ∈ segsFrom f cur lid file, ∀ x ∈ xs, x ∈ cur ∨ ∃ line ∈ file, f.matchLine line = some x.1 := by
  induction file with
  | nil =>
    intro cur lid xs hxs x hx
    rw [segsFrom_nil, List.mem_singleton] at hxs
    subst hxs; exact Or.inl hx
  | cons line file ih =>
    intro cur lid xs hxs x hx
    rw [segsFrom_cons] at hxs
    cases hm : f.matchLine line with
    | none =>
      simp only [hm] at hxs
      split at hxs
      · rcases List.mem_cons.1 hxs with rfl | h
        · exact Or.inl hx
        · rcases ih _ _ xs h x hx with h | ⟨l, hl, e⟩
          · simp at h
          · exact Or.inr ⟨l, by simp [hl], e⟩
      · rcases ih _ _ xs hxs x hx with h | ⟨l, hl, e⟩
        · exact Or.inl h
        · exact Or.inr ⟨l, by simp [hl], e⟩
    | some m =>
      simp only [hm] at hxs
      rcases ih _ _ xs hxs x hx with h | ⟨l, hl, e⟩
      · rcases List.mem_append.1 h with h | h
        · exact Or.inl h
        · rw [List.mem_singleton] at h
          subst h
          exact Or.inr ⟨line, by simp, hm⟩
      · exact Or.inr ⟨l, by simp [hl], e⟩

/-- The items of the segments are matching lines of the file. -/
theorem mem_segTexts {f : Formatter ℓ μ κ} {file : List ℓ} {xs : List μ} (h : xs ∈ segTexts f file) {m : μ}
    (hm : m ∈ xs) : ∃ line ∈ file, f.matchLine line = some m := by
  unfold segTexts at h
  obtain ⟨ys, hys, rfl⟩ := List.mem_map.1 h
  obtain ⟨x, hx, rfl⟩ := List.mem_map.1 hm
  rw [segments_eq] at hys
  rcases mem_segsFrom f file [] 0 ys hys x hx with h | h
  · simp at h
  · exact h

/-- A pair that is counted has a target that occurs. -/
theorem pairCount_occurs {f : Formatter ℓ μ κ} {L R : Nat} {files : List (List ℓ)} {t c : κ}
    (h : 0 < pairTotal f L R files t c) : Occurs f files t ∧
      ∃ file ∈ files, ∃ line ∈ file, ∃ m, f.matchLine line = some m ∧ f.getColloc m = c := by
  have hx : ∃ file ∈ files, 0 < pairCount f L R file t c := by
    by_contra hn
    have : pairTotal f L R files t c = 0 := by
      refine List.sum_eq_zero ?_
      intro x hx
      obtain ⟨file, hf, rfl⟩ := List.mem_map.1 hx
      by_contra hne
      exact hn ⟨file, hf, Nat.pos_of_ne_zero hne⟩
    omega
  obtain ⟨file, hf, hp⟩ := hx
  have hx : ∃ xs ∈ segTexts f file, ∃ i j : Nat, xs[i]?.map f.getType = some t ∧ xs[j]?.map f.getColloc = some c := by
    by_contra hn
    have : pairCount f L R file t c = 0 := by
      refine List.sum_eq_zero ?_
      intro x hx
      obtain ⟨xs, hxs, rfl⟩ := List.mem_map.1 hx
      rw [Finset.card_eq_zero, Finset.filter_eq_empty_iff]
      intro p _ hp
      exact hn ⟨xs, hxs, p.1, p.2, hp.2.2.2.2.1, hp.2.2.2.2.2⟩
    omega
  obtain ⟨xs, hxs, i, j, hi, hj⟩ := hx
  have hmem : ∀ m ∈ xs, ∃ line ∈ file, f.matchLine line = some m := by
    intro m hm
    exact mem_segTexts hxs hm
  refine ⟨⟨file, hf, ?_⟩, file, hf, ?_⟩
  · obtain ⟨m, hm, ht⟩ := Option.map_eq_some_iff.1 hi
    obtain ⟨line, hl, e⟩ := hmem m (List.mem_of_getElem? hm)
    exact ⟨line, hl, m, e, ht⟩
  · obtain ⟨m, hm, ht⟩ := Option.map_eq_some_iff.1 hj
    obtain ⟨line, hl, e⟩ := hmem m (List.mem_of_getElem? hm)
    exact ⟨line, hl, m, e, ht⟩

/-- The co-occurrence handler with one vocabulary for rows and columns. -/
theorem square_run {f : Formatter ℓ μ κ} {L R : Nat} {row col : Vocab κ} (hrw : Constructed row) (hcl : Constructed col)
    (hk2 : col.freq = row.freq) (P : κ → Prop) (hP : ∀ t, t ∈ row.freq.keys ↔ P t) {W : Nat} (hW : 1 ≤ W)
    {files : List (List ℓ)} {as : List Action} {s : State (List ℓ) (ColData κ) (ColRes κ)} (hc : CrashFree as)
    (he : exec (colProg f L R row col) as (start (colProg f L R row col) W files) = some s) (hj : Joined s) :
    ∃ r, buildColFreq row s = .ok r ∧ (r = none ↔ ∀ t c, P t → P c → pairTotal f L R files t c = 0) ∧
      ∀ m, r = some m → Valid m ∧ m.rows.Pairwise (· ≤ ·) ∧ m.cols = m.rows ∧ (∀ t, t ∈ m.rows ↔ P t) ∧
        ∀ t c, (P t → P c → entry m t c = pairTotal f L R files t c) ∧ (¬ (P t ∧ P c) → entry m t c = 0) := by
  obtain ⟨r, h1, h2, h3⟩ := C04_matrix f L R row col hrw hcl W hW files as s hc he hj
  have t1 : ∀ t c, P t → P c → totalCount f L R row col files t c = pairTotal f L R files t c := by
    intro t c ht hc
    unfold totalCount
    rw [if_pos ⟨(hP t).2 ht, Or.inr (by rw [hk2]; exact (hP c).2 hc)⟩]
    rfl
  have t2 : ∀ t c, ¬ (P t ∧ P c) → totalCount f L R row col files t c = 0 := by
    intro t c hn
    unfold totalCount
    rw [if_neg]
    rintro ⟨a, b⟩
    refine hn ⟨(hP t).1 a, ?_⟩
    rcases b with b | b
    · rw [← hk2, b] at a; simp at a
    · rw [hk2] at b; exact (hP c).1 b
  refine ⟨r, h1, ?_, ?_⟩
  · rw [h2]
    constructor
    · intro hz t c ht hc; rw [← t1 t c ht hc]; exact hz t c
    · intro hz t c
      by_cases hb : P t ∧ P c
      · rw [t1 t c hb.1 hb.2]; exact hz t c hb.1 hb.2
      · exact t2 t c hb
  · intro m hm
    obtain ⟨v, e3, e4, e5, e6⟩ := h3 m hm
    have hne : col.freq ≠ [] := by
      intro h0
      have : r = none := h2.2 (fun t c => t2 t c (fun h => by
        have := (hP t).2 h.1
        rw [← hk2, h0] at this; simp at this))
      rw [this] at hm; exact (nomatch hm)
    have hsorted : m.rows.Pairwise (· ≤ ·) := by rw [e3]; exact itemList_sorted _
    have hmem : ∀ t, t ∈ m.rows ↔ P t := by
      intro t; rw [e3, mem_itemList, hP]
    refine ⟨v, hsorted, ?_, hmem, ?_⟩
    · refine eq_of_perm_of_pairwise ?_ ?_ e4 hsorted
      · intro a ha b hb x y; exact le_antisymm x y
      · refine (List.perm_ext_iff_of_nodup v.cols v.rows).2 (fun c => ?_)
        rw [e5, if_neg hne, hk2, hP, hmem]
    · intro t c
      exact ⟨fun ht hc => by rw [e6, t1 t c ht hc], fun hn => by rw [e6, t2 t c hn]; rfl⟩

/-- What is kept by a first `fit` without vocabularies. -/
theorem first_fit {f : Formatter ℓ μ κ} {L R : Nat} {tv tv' : TypeVec κ} {files : List (List ℓ)}
    {res : Except Matrix.Err (Option (Mtx κ Int))} (hrow : tv.row = none) (hcol : tv.col = none)
    (h : FitRun f L R tv files tv' res) :
    ∃ row col, tv'.row = some row ∧ tv'.col = some col ∧ Constructed row ∧ Constructed col ∧ col.freq = row.freq ∧
      (∀ t, t ∈ row.freq.keys ↔ Occurs f files t) ∧
      ∃ W as s, 1 ≤ W ∧ CrashFree as ∧
        exec (colProg f L R row col) as (start (colProg f L R row col) W files) = some s ∧ Joined s ∧
        res = buildColFreq row s := by
  obtain ⟨W, W', as, as', s, row, s', hW, hW', hc, hc', e1, hr, e2, j2, hfit⟩ := h.run
  obtain ⟨e1, j1⟩ := e1 hrow
  have hcv : fitCol tv row = Vocab.deepcopy row := by unfold fitCol; rw [hcol]
  have hr' : ∃ rs, readN files.length s = some rs ∧ mergeFreqs rs = row := by
    unfold fitRow at hr; rw [hrow] at hr
    exact Option.map_eq_some_iff.1 hr
  obtain ⟨rs, hrs, rfl⟩ := hr'
  have hwf : (mergeFreqs rs).freq.WF := mergeFreqs_WF rs
  rw [hcv] at e2
  obtain ⟨hk, hres⟩ := Prod.mk.inj hfit
  refine ⟨mergeFreqs rs, Vocab.deepcopy (mergeFreqs rs), by rw [hk]; rfl, by rw [hk]; unfold fitKeep; rw [hcv],
    ⟨hwf, rfl⟩, constructed_deepcopy hwf, rfl, mem_keys_mergeFreqs e1 j1 hrs, W', as', s', hW', hc', e2, j2, hres⟩

/-! ## C107: fitting -/

/-- What fitting without vocabularies computes, whatever the files, formats and spans: the rows and the columns are the
types that occur, sorted; the entries are the counts of `C10_exact`, for collocates that also occur as types. -/
theorem C107_exact {f : Formatter ℓ μ κ} {L R : Nat} {tv tv' : TypeVec κ} {files : List (List ℓ)}
    {res : Except Matrix.Err (Option (Mtx κ Int))} (hrow : tv.row = none) (hcol : tv.col = none)
    (h : FitRun f L R tv files tv' res) :
    ∃ r, res = .ok r ∧ (r = none ↔ ∀ t c, Occurs f files c → pairTotal f L R files t c = 0) ∧
      ∀ m, r = some m → Valid m ∧ m.rows.Pairwise (· ≤ ·) ∧ m.cols = m.rows ∧ (∀ t, t ∈ m.rows ↔ Occurs f files t) ∧
        ∀ t c, (Occurs f files c → entry m t c = pairTotal f L R files t c) ∧ (¬ Occurs f files c → entry m t c = 0) := by
  obtain ⟨row, col, _, _, g1, g2, g3, g4, W, as, s, hW, hc, he, hj, rfl⟩ := first_fit hrow hcol h
  obtain ⟨r, h1, h2, h3⟩ := square_run g1 g2 g3 _ g4 hW hc he hj
  have hz : ∀ t c, ¬ Occurs f files t → pairTotal f L R files t c = 0 := by
    intro t c hn
    by_contra hne
    exact hn (pairCount_occurs (Nat.pos_of_ne_zero hne)).1
  refine ⟨r, h1, ?_, ?_⟩
  · rw [h2]
    constructor
    · intro hq t c hoc
      by_cases ht : Occurs f files t
      · exact hq t c ht hoc
      · exact hz t c ht
    · exact fun hq t c _ hoc => hq t c hoc
  · intro m hm
    obtain ⟨v, e3, e4, e5, e6⟩ := h3 m hm
    refine ⟨v, e3, e4, e5, fun t c => ⟨fun hoc => ?_, fun hn => (e6 t c).2 (fun h => hn h.2)⟩⟩
    by_cases ht : Occurs f files t
    · exact (e6 t c).1 ht hoc
    · rw [(e6 t c).2 (fun h => ht h.1), hz t c ht]; rfl

/-- **C107 (partial).** Types and collocates are written alike, and no segment has 2 to `R` lines: `fit` gives the
textbook counts of all pairs of types of the corpus, or nothing if there is no pair.  Without these conditions the
claim fails: see `C107_false_formats` and `C10_false`. -/
theorem C107_fit_partial {f : Formatter ℓ μ κ} {L R : Nat} {tv tv' : TypeVec κ} {files : List (List ℓ)}
    {res : Except Matrix.Err (Option (Mtx κ Int))} (hrow : tv.row = none) (hcol : tv.col = none)
    (hf : f.getColloc = f.getType)
    (hseg : ∀ file ∈ files, ∀ xs ∈ segTexts f file, xs.length ≤ 1 ∨ R < xs.length)
    (h : FitRun f L R tv files tv' res) :
    ∃ r, res = .ok r ∧ (r = none ↔ ∀ t c, (files.map (fun file => coocFile f L R file t c)).sum = 0) ∧
      ∀ m, r = some m → Valid m ∧ m.rows.Pairwise (· ≤ ·) ∧ m.cols = m.rows ∧ (∀ t, t ∈ m.rows ↔ Occurs f files t) ∧
        ∀ t c, entry m t c = (files.map (fun file => coocFile f L R file t c)).sum := by
  have hp : ∀ t c, pairTotal f L R files t c = (files.map (fun file => coocFile f L R file t c)).sum := by
    intro t c
    have := C04_textbook_partial f L R ⟨[(t, 1)], true, false⟩ Vocab.empty files hseg t c
    unfold totalCount at this
    have hw : Wanted (⟨[(t, 1)], true, false⟩ : Vocab κ) Vocab.empty t c := ⟨by simp [Dict.keys], Or.inl rfl⟩
    rw [if_pos hw, if_pos hw] at this
    exact this
  have hz : ∀ t c, ¬ Occurs f files c → pairTotal f L R files t c = 0 := by
    intro t c hn
    by_contra hne
    obtain ⟨file, h1, line, h2, m, h3, h4⟩ := (pairCount_occurs (Nat.pos_of_ne_zero hne)).2
    exact hn ⟨file, h1, line, h2, m, h3, by rw [← hf]; exact h4⟩
  obtain ⟨r, h1, h2, h3⟩ := C107_exact hrow hcol h
  refine ⟨r, h1, ?_, ?_⟩
  · rw [h2]
    constructor
    · intro hq t c
      rw [← hp]
      by_cases ho : Occurs f files c
      · exact hq t c ho
      · exact hz t c ho
    · intro hq t c _; rw [hp]; exact hq t c
  · intro m hm
    obtain ⟨v, e3, e4, e5, e6⟩ := h3 m hm
    refine ⟨v, e3, e4, e5, fun t c => ?_⟩
    rw [← hp]
    by_cases ho : Occurs f files c
    · exact (e6 t c).1 ho
    · rw [(e6 t c).2 ho, hz t c ho]; rfl

/-- A format in which collocates are written differently from types (lemma and lemma/part of speech, say). -/
def fmtMixed : Formatter Nat Nat Nat := { fmt with getColloc := fun n => n % 10 + 100 }

/-- The fresh vectorizer. -/
def fresh : TypeVec Nat := ⟨none, none, 1, 1, 1, 1⟩

/-- **C107 is false when types and collocates are written differently**: whatever run, all counts are lost. -/
theorem C107_false_formats : (∃ tv' res, FitRun fmtMixed 1 1 fresh [[1, 2, 3]] tv' res) ∧
    (∀ tv' res, FitRun fmtMixed 1 1 fresh [[1, 2, 3]] tv' res → res = .ok none) ∧
    coocFile fmtMixed 1 1 [1, 2, 3] 1 102 = 1 := by
  refine ⟨exists_fitRun _ _ _ _ _, ?_, by decide +kernel⟩
  intro tv' res h
  obtain ⟨r, rfl, h2, _⟩ := C107_exact rfl rfl h
  congr 1
  refine h2.2 ?_
  rintro t c ⟨file, hf, line, hl, m, hm, rfl⟩
  by_contra hne
  obtain ⟨file', hf', line', hl', m', hm', he⟩ := (pairCount_occurs (Nat.pos_of_ne_zero hne)).2
  have h1 : fmtMixed.getColloc m' = m' % 10 + 100 := rfl
  have h2 : fmtMixed.getType m = m % 10 := rfl
  rw [h1, h2] at he
  omega

/-- Non-vacuity of C107: the run exists, the segment is long enough, and the counts are not all zero. -/
example : (∃ tv' res, FitRun fmt 1 1 fresh [[1, 2, 1], [2, 3]] tv' res) ∧ fmt.getColloc = fmt.getType ∧
    (∀ file ∈ [[1, 2, 1], [2, 3]], ∀ xs ∈ segTexts fmt file, xs.length ≤ 1 ∨ 1 < xs.length) ∧
    (([[1, 2, 1], [2, 3]] : List (List Nat)).map (fun file => coocFile fmt 1 1 file 2 1)).sum = 2 :=
  ⟨exists_fitRun _ _ _ _ _, rfl, by intro file _ xs _; omega, by decide +kernel⟩

/-! ## C108: fitting again -/

/-- What a second `fit` computes: rows and columns are the types of the *first* files, the counts are those of the
second files. -/
theorem C108_second_fit {f : Formatter ℓ μ κ} {L R : Nat} {tv tv1 tv2 : TypeVec κ} {files1 files2 : List (List ℓ)}
    {res1 res2 : Except Matrix.Err (Option (Mtx κ Int))} (hrow : tv.row = none) (hcol : tv.col = none)
    (h1 : FitRun f L R tv files1 tv1 res1) (h2 : FitRun f L R tv1 files2 tv2 res2) :
    ∃ r, res2 = .ok r ∧
      (r = none ↔ ∀ t c, Occurs f files1 t → Occurs f files1 c → pairTotal f L R files2 t c = 0) ∧
      (∀ m, r = some m → Valid m ∧ m.rows.Pairwise (· ≤ ·) ∧ m.cols = m.rows ∧ (∀ t, t ∈ m.rows ↔ Occurs f files1 t) ∧
        ∀ t c, (Occurs f files1 t → Occurs f files1 c → entry m t c = pairTotal f L R files2 t c) ∧
          (¬ (Occurs f files1 t ∧ Occurs f files1 c) → entry m t c = 0)) ∧
      tv2 = tv1 := by
  obtain ⟨row, col, k1, k2, g1, g2, g3, g4, _⟩ := first_fit hrow hcol h1
  obtain ⟨W, W', as, as', s, row', s', hW, hW', hc, hc', _, hr, e2, j2, hfit⟩ := h2.run
  have : row' = row := by
    unfold fitRow at hr; rw [k1] at hr; exact (Option.some.inj hr).symm
  subst this
  have hcv : fitCol tv1 row' = col := by unfold fitCol; rw [k2]
  rw [hcv] at e2
  obtain ⟨hk, hres⟩ := Prod.mk.inj hfit
  obtain ⟨r, q1, q2, q3⟩ := square_run g1 g2 g3 _ g4 hW' hc' e2 j2
  refine ⟨r, by rw [hres]; exact q1, q2, q3, ?_⟩
  rw [hk]
  unfold fitKeep
  rw [hcv, ← k1, ← k2]

/-- **C108 is false**: `fit` on a vectorizer that was fitted on `[1, 2]` returns nothing for `[3, 4]`, in which a
fresh vectorizer counts. -/
theorem C108_false : (∃ tv1 res1 tv2 res2, FitRun fmt 1 1 fresh [[1, 2]] tv1 res1 ∧ FitRun fmt 1 1 tv1 [[3, 4]] tv2 res2) ∧
    ∀ tv1 res1, FitRun fmt 1 1 fresh [[1, 2]] tv1 res1 →
      (∀ tv2 res2, FitRun fmt 1 1 tv1 [[3, 4]] tv2 res2 → res2 = .ok none) ∧
      (∀ tv2 res2, FitRun fmt 1 1 fresh [[3, 4]] tv2 res2 → res2 ≠ .ok none) := by
  have o12 : ∀ t, Occurs fmt [[1, 2]] t → t = 1 ∨ t = 2 := by
    rintro t ⟨file, hf, line, hl, m, hm, rfl⟩
    simp only [List.mem_singleton] at hf
    subst hf
    simp only [List.mem_cons, List.not_mem_nil, or_false] at hl
    rcases hl with rfl | rfl <;> (simp [fmt] at hm; subst hm; simp [fmt])
  have o34 : ∀ t, Occurs fmt [[3, 4]] t → t = 3 ∨ t = 4 := by
    rintro t ⟨file, hf, line, hl, m, hm, rfl⟩
    simp only [List.mem_singleton] at hf
    subst hf
    simp only [List.mem_cons, List.not_mem_nil, or_false] at hl
    rcases hl with rfl | rfl <;> (simp [fmt] at hm; subst hm; simp [fmt])
  constructor
  · obtain ⟨tv1, res1, h1⟩ := exists_fitRun fmt 1 1 fresh [[1, 2]]
    obtain ⟨tv2, res2, h2⟩ := exists_fitRun fmt 1 1 tv1 [[3, 4]]
    exact ⟨tv1, res1, tv2, res2, h1, h2⟩
  · intro tv1 res1 h1
    refine ⟨fun tv2 res2 h2 => ?_, fun tv2 res2 h2 => ?_⟩
    · obtain ⟨r, rfl, q, _⟩ := C108_second_fit rfl rfl h1 h2
      congr 1
      refine q.2 (fun t c ht _ => ?_)
      by_contra hne
      have a := o34 t (pairCount_occurs (Nat.pos_of_ne_zero hne)).1
      have b := o12 t ht
      omega
    · obtain ⟨r, rfl, q, _⟩ := C107_exact rfl rfl h2
      intro h
      have h : r = none := by injection h
      have := q.1 h 3 4 ⟨[3, 4], by simp, 4, by simp, 4, rfl, rfl⟩
      revert this
      decide +kernel

/-- **C108 (partial).** A second `fit` on files in which the same types occur gives what the first `fit` of a fresh
vectorizer gives on them. -/
theorem C108_same_types_partial {f : Formatter ℓ μ κ} {L R : Nat} {tv tv1 tv2 tv' : TypeVec κ}
    {files1 files2 : List (List ℓ)} {res1 res2 res' : Except Matrix.Err (Option (Mtx κ Int))} (hrow : tv.row = none)
    (hcol : tv.col = none) (hsame : ∀ t, Occurs f files1 t ↔ Occurs f files2 t)
    (h1 : FitRun f L R tv files1 tv1 res1) (h2 : FitRun f L R tv1 files2 tv2 res2) (h' : FitRun f L R tv files2 tv' res') :
    ∃ r r', res2 = .ok r ∧ res' = .ok r' ∧ (r = none ↔ r' = none) ∧
      ∀ m m', r = some m → r' = some m' → m.rows = m'.rows ∧ m.cols = m'.cols ∧ ∀ t c, entry m t c = entry m' t c := by
  obtain ⟨r, e1, e2, e3, _⟩ := C108_second_fit hrow hcol h1 h2
  obtain ⟨r', g1, g2, g3⟩ := C107_exact hrow hcol h'
  have hz : ∀ t c, ¬ Occurs f files2 t → pairTotal f L R files2 t c = 0 := by
    intro t c hn
    by_contra hne
    exact hn (pairCount_occurs (Nat.pos_of_ne_zero hne)).1
  refine ⟨r, r', e1, g1, ?_, ?_⟩
  · rw [e2, g2]
    constructor
    · intro hq t c hoc
      by_cases ht : Occurs f files2 t
      · exact hq t c ((hsame t).2 ht) ((hsame c).2 hoc)
      · exact hz t c ht
    · exact fun hq t c _ hoc => hq t c ((hsame c).1 hoc)
  · intro m m' hm hm'
    obtain ⟨a1, a2, a3, a4, a5⟩ := e3 m hm
    obtain ⟨b1, b2, b3, b4, b5⟩ := g3 m' hm'
    have hrows : m.rows = m'.rows := by
      refine eq_of_perm_of_pairwise ?_ ?_ a2 b2
      · intro a ha b hb x y; exact le_antisymm x y
      · exact (List.perm_ext_iff_of_nodup a1.rows b1.rows).2 (fun t => by rw [a4, b4, hsame])
    refine ⟨hrows, by rw [a3, b3, hrows], fun t c => ?_⟩
    by_cases hc : Occurs f files2 c
    · by_cases ht : Occurs f files2 t
      · rw [(a5 t c).1 ((hsame t).2 ht) ((hsame c).2 hc), (b5 t c).1 hc]
      · rw [(a5 t c).2 (fun h => ht ((hsame t).1 h.1)), (b5 t c).1 hc, hz t c ht]; rfl
    · rw [(a5 t c).2 (fun h => hc ((hsame c).1 h.2)), (b5 t c).2 hc]

/-! ## C109: the frequency bounds -/

/-- A vectorizer is refused exactly if some bound is negative. -/
theorem C109_negative (row col : Option (Vocab κ)) (a b c d : Rat) :
    ((∃ tv, newTypeVec row col a b c d = .ok tv) ↔ 0 ≤ a ∧ 0 ≤ b ∧ 0 ≤ c ∧ 0 ≤ d) ∧
    ∀ tv, newTypeVec row col a b c d = .ok tv → tv = ⟨row, col, a, b, c, d⟩ := by
  unfold newTypeVec
  split
  · next h =>
    refine ⟨⟨fun ⟨tv, h⟩ => (nomatch h), fun hh => absurd h ?_⟩, fun tv h => (nomatch h)⟩
    push Not
    exact hh
  · next h =>
    push Not at h
    exact ⟨⟨fun _ => h, fun _ => ⟨_, rfl⟩⟩, fun tv h => by injection h with h; exact h.symm⟩

/-- The bounds do not change what `fit` returns and keeps: any result with some bounds is one with any other bounds. -/
theorem C109_ignored {f : Formatter ℓ μ κ} {L R : Nat} {row col : Option (Vocab κ)} {a b c d a' b' c' d' : Rat}
    {files : List (List ℓ)} {tv' : TypeVec κ} {res : Except Matrix.Err (Option (Mtx κ Int))}
    (h : FitRun f L R ⟨row, col, a, b, c, d⟩ files tv' res) :
    FitRun f L R ⟨row, col, a', b', c', d'⟩ files ⟨tv'.row, tv'.col, a', b', c', d'⟩ res := by
  obtain ⟨W, W', as, as', s, r, s', hW, hW', hc, hc', e1, hr, e2, j2, hfit⟩ := h.run
  obtain ⟨rfl, rfl⟩ := Prod.mk.inj hfit
  exact ⟨W, W', as, as', s, r, s', hW, hW', hc, hc', e1, hr, e2, j2, rfl⟩

/-- **C109 is false**: with bounds of at least 5 occurrences, types that occur once are rows and columns. -/
theorem C109_false : newTypeVec none none 100 5 100 5 = .ok (⟨none, none, 100, 5, 100, 5⟩ : TypeVec Nat) ∧
    (∃ tv' res, FitRun fmt 1 1 ⟨none, none, 100, 5, 100, 5⟩ [[1, 2]] tv' res) ∧
    ∀ tv' res, FitRun fmt 1 1 ⟨none, none, 100, 5, 100, 5⟩ [[1, 2]] tv' res →
      ∃ m, res = .ok (some m) ∧ 1 ∈ m.rows ∧ 2 ∈ m.cols ∧ entry m 1 2 = 1 := by
  refine ⟨by unfold newTypeVec; rw [if_neg]; norm_num, exists_fitRun _ _ _ _ _, ?_⟩
  intro tv' res h
  obtain ⟨r, rfl, q, hm⟩ := C107_exact rfl rfl h
  have o1 : Occurs fmt [[1, 2]] 1 := ⟨[1, 2], by simp, 1, by simp, 1, rfl, rfl⟩
  have o2 : Occurs fmt [[1, 2]] 2 := ⟨[1, 2], by simp, 2, by simp, 2, rfl, rfl⟩
  cases r with
  | none =>
    have := q.1 rfl 1 2 o2
    exact absurd this (by decide +kernel)
  | some m =>
    obtain ⟨_, _, e1, e2, e3⟩ := hm m rfl
    refine ⟨m, rfl, (e2 1).2 o1, by rw [e1]; exact (e2 2).2 o2, ?_⟩
    rw [(e3 1 2).1 o2]
    decide +kernel

/-! ## C110: weighting a fitted matrix, corpus name -/

/-- **C110 is false**: whatever the weighting would compute, `vectorize` ends in an error. -/
theorem C110_false {α : Type} (body : Except Unit α) : vectorize body = .error () := rfl

/-- A call passes the check exactly if all arguments without default are given. -/
theorem C110_call_partial {α : Type} (required given : List String) (v : α) :
    callWith required given (.ok v) = .ok v ↔ ∀ r ∈ required, r ∈ given := by
  unfold callWith
  split
  · next h => simpa using h
  · next h => simpa using h

/-- The name of a corpus that is given is not kept. -/
theorem C110_name (n : List Char) (hn : n ≠ []) (parts : List (List Char)) (last : List Char) :
    corpusName (some n) (parts ++ [last]) = some last ∧ corpusName none (parts ++ [last]) = none := by
  cases n with
  | nil => exact absurd rfl hn
  | cons a n => simp [corpusName]

example : corpusName (some "Mine".toList) ["home".toList, "corpus".toList] = some "corpus".toList := rfl

end Verif.Flow
