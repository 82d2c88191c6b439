import Verif.Cooc.Props
import Verif.Engine.Props
import Verif.Matrix.PropsLaws

/-! # Property theorems C141-C144 (parts of a corpus, wider spans, tokens and counts) -/

set_option linter.unusedSectionVars false

namespace Verif.Cooc
open Verif.Py Verif.Vocab Verif.Corpus Verif.Window Verif.Engine Verif.Matrix

variable {ℓ μ κ : Type} [LinearOrder κ]

/-! ## C141 -/

/-- Some call of `build_col_freq` for these files, with any number of workers, in which no worker is killed, returns `res`. -/
def Returns (f : Formatter ℓ μ κ) (L R : Nat) (rowv colv : Vocab κ) (files : List (List ℓ)) (res : Option (Mtx κ Int)) : Prop :=
  ∃ (W : Nat) (as : List Action) (s : State (List ℓ) (ColData κ) (ColRes κ)), 1 ≤ W ∧ CrashFree as ∧
    exec (colProg f L R rowv colv) as (start (colProg f L R rowv colv) W files) = some s ∧ Joined s ∧ buildColFreq rowv s = .ok res

/-- What a result says about a pair: nothing counted, or the entry of the matrix. -/
def countIn : Option (Mtx κ Int) → κ → κ → Int
  | none, _, _ => 0
  | some m, t, c => entry m t c

theorem Returns.isResult {f : Formatter ℓ μ κ} {L R : Nat} {rowv colv : Vocab κ} (hrw : Constructed rowv) (hc : Constructed colv)
    {files : List (List ℓ)} {res : Option (Mtx κ Int)} (h : Returns f L R rowv colv files res) :
    IsResult f L R rowv colv files res := by
  obtain ⟨W, as, s, hW, hcf, hs, hj, hb⟩ := h
  unfold buildColFreq at hb
  by_cases hr : rowv.freq = []
  · rw [if_pos (by unfold Vocab.len; rwa [keys_eq_nil])] at hb
    cases hb
    intro t c
    unfold totalCount
    refine if_neg ?_
    unfold Wanted
    rw [hr]
    simp
  · rw [if_neg (by unfold Vocab.len; rwa [keys_eq_nil])] at hb
    obtain ⟨parts, _, hp, he⟩ := accumulate_results hW hcf hs hj
    obtain ⟨r, h1, h2⟩ := processResults_parts f L R hrw hr hc parts [] none (by intro t c; simp [totalCount])
    have e : ∀ t c, totalCount f L R rowv colv ([] ++ parts.flatten) t c = totalCount f L R rowv colv files t c :=
      fun t c => totalCount_perm f L R rowv colv (by simpa using hp) t c
    have hrr : r = res := by
      unfold processResults readAll at hb
      rw [he] at hb
      exact Except.ok.inj (h1.symm.trans hb)
    subst hrr
    cases r with
    | none => intro t c; rw [← e]; exact h2 t c
    | some m =>
      refine ⟨isCounts_zero f L R e h2.1, ?_⟩
      obtain ⟨t, c, hpos⟩ := h2.2
      exact ⟨t, c, by rw [← e]; exact hpos⟩

theorem IsResult.countIn {f : Formatter ℓ μ κ} {L R : Nat} {rowv colv : Vocab κ} {files : List (List ℓ)}
    {res : Option (Mtx κ Int)} (h : IsResult f L R rowv colv files res) (t c : κ) :
    countIn res t c = totalCount f L R rowv colv files t c := by
  cases res with
  | none => show (0 : Int) = _; rw [h t c]; rfl
  | some m => exact h.1.entry t c

/-- Two matrices of the counts of the same pairs have the same names and entries. -/
theorem IsCounts.same {f : Formatter ℓ μ κ} {L R : Nat} {rowv colv : Vocab κ} {a b : List (List ℓ)} {m n : Mtx κ Int}
    (h : ∀ t c, totalCount f L R rowv colv a t c = totalCount f L R rowv colv b t c)
    (hm : IsCounts f L R rowv colv a m) (hn : IsCounts f L R rowv colv b n) : SameNamed m n := by
  refine ⟨hm.rows.trans hn.rows.symm, ?_, fun t c => by rw [hm.entry, hn.entry, h]⟩
  refine eq_of_perm_of_pairwise (fun a _ b _ x y => le_antisymm x y) ?_ hm.sorted hn.sorted
  refine (List.perm_ext_iff_of_nodup hm.valid.cols hn.valid.cols).2 (fun c => ?_)
  rw [hm.cols, hn.cols]
  simp only [h]

theorem sortedUnion_self {l : List κ} (hl : l.Nodup) (hs : l.Pairwise (· ≤ ·)) : sortedUnion l l = l := by
  refine List.Perm.eq_of_pairwise (le := (· ≤ ·)) (fun x y _ _ => le_antisymm) (sortedUnion_sorted l l) hs ?_
  rw [List.perm_ext_iff_of_nodup (sortedUnion_nodup _ _) hl]
  intro e
  rw [sortedUnion_mem]
  simp

theorem merge_isCounts {f : Formatter ℓ μ κ} {L R : Nat} {rowv colv : Vocab κ} {a b : List (List ℓ)} {m n : Mtx κ Int}
    (hm : IsCounts f L R rowv colv a m) (hn : IsCounts f L R rowv colv b n)
    (hpos : ∃ t c, 0 < totalCount f L R rowv colv a t c) :
    ∃ u, mergeByName m n = .ok u ∧ IsCounts f L R rowv colv (a ++ b) u := by
  obtain ⟨sa, ha, _⟩ := hm.csr
  obtain ⟨sb, hb, _⟩ := hn.csr
  have hne : sa.data ≠ [] := by
    obtain ⟨t, c, hp⟩ := hpos
    refine stores_of_entry ha ⟨t, c, ?_⟩
    rw [hm.entry]
    omega
  obtain ⟨u, h1, h2, h3, h4, h5, h6⟩ := C55_merge_partial hm.valid hn.valid ha hb (Or.inl hne)
  refine ⟨u, h1, h2, h3, ?_, ?_, ?_, ?_⟩
  · rw [h4, hm.rows, hn.rows, sortedUnion_self]
    · rw [← hm.rows]; exact hm.valid.rows
    · exact sortedBy_pairwise id _
  · rw [h5]; exact sortedUnion_sorted _ _
  · intro c
    rw [h5, sortedUnion_mem, hm.cols, hn.cols]
    by_cases hce : colv.freq = []
    · simp only [if_pos hce]
      constructor
      · rintro (⟨t, h⟩ | ⟨t, h⟩) <;> exact ⟨t, by rw [totalCount_append]; omega⟩
      · rintro ⟨t, h⟩
        rw [totalCount_append] at h
        rcases Nat.eq_zero_or_pos (totalCount f L R rowv colv a t c) with h0 | h0
        · exact Or.inr ⟨t, by omega⟩
        · exact Or.inl ⟨t, h0⟩
    · simp only [if_neg hce, or_self]
  · intro t c
    rw [h6, hm.entry, hn.entry, totalCount_append]
    push_cast
    rfl

/-- **C141** (matrices).  If a corpus is counted in two parts, in three independent calls with any numbers of workers: the counts
of the parts add up to those of the whole; merging the two matrices by name gives the matrix of the whole, with the same names in
the same order; and a part without any pair changes nothing. -/
theorem C141_matrix {f : Formatter ℓ μ κ} {L R : Nat} {rowv colv : Vocab κ} (hrw : Constructed rowv) (hc : Constructed colv)
    {a b : List (List ℓ)} {ra rb rab : Option (Mtx κ Int)} (ha : Returns f L R rowv colv a ra)
    (hb : Returns f L R rowv colv b rb) (hab : Returns f L R rowv colv (a ++ b) rab) :
    (∀ t c, countIn rab t c = countIn ra t c + countIn rb t c) ∧
    (∀ m n, ra = some m → rb = some n → ∃ u w, mergeByName m n = .ok u ∧ rab = some w ∧ SameNamed u w) ∧
    (∀ m, ra = some m → rb = none → ∃ w, rab = some w ∧ SameNamed m w) ∧
    (∀ n, ra = none → rb = some n → ∃ w, rab = some w ∧ SameNamed n w) ∧
    (ra = none → rb = none → rab = none) := by
  have ka := ha.isResult hrw hc
  have kb := hb.isResult hrw hc
  have kab := hab.isResult hrw hc
  have hsome : ∀ t c, 0 < totalCount f L R rowv colv (a ++ b) t c → ∃ w, rab = some w ∧ IsCounts f L R rowv colv (a ++ b) w := by
    intro t c h
    cases rab with
    | none => exact absurd (kab t c) (by omega)
    | some w => exact ⟨w, rfl, kab.1⟩
  refine ⟨?_, ?_, ?_, ?_, ?_⟩
  · intro t c
    rw [kab.countIn, ka.countIn, kb.countIn, totalCount_append]
    push_cast
    rfl
  · rintro m n rfl rfl
    obtain ⟨u, h1, h2⟩ := merge_isCounts ka.1 kb.1 ka.2
    obtain ⟨t, c, h⟩ := ka.2
    obtain ⟨w, rfl, h3⟩ := hsome t c (by rw [totalCount_append]; omega)
    exact ⟨u, w, h1, rfl, h2.same (fun _ _ => rfl) h3⟩
  · rintro m rfl rfl
    obtain ⟨t, c, h⟩ := ka.2
    obtain ⟨w, rfl, h3⟩ := hsome t c (by rw [totalCount_append]; omega)
    exact ⟨w, rfl, ka.1.same (fun t c => by rw [totalCount_append, kb t c, add_zero]) h3⟩
  · rintro n rfl rfl
    obtain ⟨t, c, h⟩ := kb.2
    obtain ⟨w, rfl, h3⟩ := hsome t c (by rw [totalCount_append]; omega)
    exact ⟨w, rfl, kb.1.same (fun t c => by rw [totalCount_append, ka t c, zero_add]) h3⟩
  · rintro rfl rfl
    cases rab with
    | none => rfl
    | some w =>
      obtain ⟨t, c, h⟩ := kab.2
      rw [totalCount_append, ka t c, kb t c] at h
      omega

/-- Some call of `build_item_freq` for these files, whatever happens to its workers, returns this vocabulary. -/
def ReturnsFreq (f : Formatter ℓ μ κ) (files : List (List ℓ)) (v : Vocab κ) : Prop :=
  ∃ (W : Nat) (as : List Action) (s : State (List ℓ) Unit (Dict κ Int)) (rs : List (Dict κ Int)),
    exec (perJob (itemFreqFile f)) as (start (perJob (itemFreqFile f)) W files) = some s ∧ Joined s ∧
      readN files.length s = some rs ∧ v = mergeFreqs rs

/-- **C141** (frequency lists).  The frequencies of the parts of a corpus add up to those of the whole, and a type is in the list of
the whole exactly if it is in one of the lists of the parts. -/
theorem C141_freq {f : Formatter ℓ μ κ} {a b : List (List ℓ)} {va vb vab : Vocab κ} (ha : ReturnsFreq f a va)
    (hb : ReturnsFreq f b vb) (hab : ReturnsFreq f (a ++ b) vab) (k : κ) :
    (vab.freq.get? k).getD 0 = (va.freq.get? k).getD 0 + (vb.freq.get? k).getD 0 ∧
    (contains vab k = true ↔ contains va k = true ∨ contains vb k = true) := by
  obtain ⟨W1, as1, s1, r1, a1, a2, a3, rfl⟩ := ha
  obtain ⟨W2, as2, s2, r2, b1, b2, b3, rfl⟩ := hb
  obtain ⟨W3, as3, s3, r3, c1, c2, c3, rfl⟩ := hab
  have e1 := C01_freq_list f W1 a as1 s1 r1 a1 a2 a3 k
  have e2 := C01_freq_list f W2 b as2 s2 r2 b1 b2 b3 k
  have e3 := C01_freq_list f W3 (a ++ b) as3 s3 r3 c1 c2 c3 k
  simp only [List.map_append, List.sum_append] at e1 e2 e3
  have hcon : ∀ v : Vocab κ, contains v k = (v.freq.get? k).isSome := by
    intro v
    unfold contains
    rw [Bool.eq_iff_iff, Dict.contains_iff, Dict.get?_isSome_iff]
  rw [hcon, hcon, hcon, e1, e2, e3]
  generalize (a.map (occurrences f k)).sum = x
  generalize (b.map (occurrences f k)).sum = y
  constructor
  · repeat' split
    all_goals simp only [Option.getD_some, Option.getD_none]
    all_goals omega
  · repeat' split
    all_goals simp
    all_goals omega

/-! ## C142 -/

/-- The claim: with spans that are at least as wide no count is lower. -/
def C142_claim (f : Formatter ℓ μ κ) (L R L' R' : Nat) (rowv colv : Vocab κ) (files : List (List ℓ)) : Prop :=
  ∀ r r', Returns f L R rowv colv files r → Returns f L' R' rowv colv files r' → ∀ t c, countIn r t c ≤ countIn r' t c

theorem sum_le_sum_map {α : Type} {l : List α} {g h : α → Nat} (H : ∀ x ∈ l, g x ≤ h x) : (l.map g).sum ≤ (l.map h).sum := by
  induction l with
  | nil => simp
  | cons x l ih =>
    rw [List.map_cons, List.map_cons, List.sum_cons, List.sum_cons]
    have := H x (by simp)
    have := ih (fun y hy => H y (by simp [hy]))
    omega

/-- **C142 (partial).**  The full claim is `C142_claim` for `L ≤ L'`, `R ≤ R'`; it is false (`C142_counterexample`).  It holds if
the right span stays the same, and for files none of whose segments has more than `R` (or 2, if that is more) and at most `R'`
lines. -/
theorem C142_partial {f : Formatter ℓ μ κ} {L R L' R' : Nat} (hL : L ≤ L') (hR : R ≤ R') {rowv colv : Vocab κ}
    (hrw : Constructed rowv) (hc : Constructed colv) {files : List (List ℓ)}
    (hseg : ∀ file ∈ files, ∀ xs ∈ segTexts f file, xs.length ≤ max R 1 ∨ R' < xs.length) :
    C142_claim f L R L' R' rowv colv files := by
  intro r r' h h' t c
  rw [(h.isResult hrw hc).countIn, (h'.isResult hrw hc).countIn]
  norm_cast
  unfold totalCount
  split
  · refine sum_le_sum_map (fun file hf => ?_)
    unfold pairCount
    refine sum_le_sum_map (fun xs hx => ?_)
    refine Finset.card_le_card ?_
    intro p hp
    simp only [Finset.mem_filter, Finset.mem_product, Finset.mem_range] at hp ⊢
    obtain ⟨⟨h1, h2⟩, h3, h4, h5, h6, h7⟩ := hp
    refine ⟨⟨h1, h2⟩, ?_, h4, by omega, by omega, h7⟩
    intro hle
    rcases hseg file hf xs hx with h | h
    · rcases Nat.lt_or_ge R xs.length with hlt | hge
      · have : xs.length = 1 := by omega
        omega
      · exact h3 hge
    · omega
  · exact le_refl _

/-- Widening the left span only never lowers a count. -/
theorem C142_left {f : Formatter ℓ μ κ} {L R L' : Nat} (hL : L ≤ L') {rowv colv : Vocab κ} (hrw : Constructed rowv)
    (hc : Constructed colv) (files : List (List ℓ)) : C142_claim f L R L' R rowv colv files :=
  C142_partial hL (le_refl R) hrw hc (fun _ _ xs _ => by omega)

/-- A run with one worker on one file. -/
def one : List Action := [.produce, .produce, .take 0, .work 0, .take 0, .work 0]

/-- **C142 is false**: with spans (1, 1) the second of two lines is a target, with spans (1, 2) it is not. -/
theorem C142_counterexample : ¬ C142_claim fmt 1 1 1 2 rowv12 Vocab.empty [[1, 2]] := by
  intro h
  have a : Returns fmt 1 1 rowv12 Vocab.empty [[1, 2]] (some ⟨.sp ⟨.csr, 2, 2, [((0, 1), 1), ((1, 0), 1)]⟩, [1, 2], [1, 2]⟩) := by
    refine ⟨1, one, _, le_refl _, by intro i; simp [one], rfl, ⟨rfl, ?_⟩, rfl⟩
    intro w hw
    exact Or.inl ⟨_, List.mem_singleton.1 hw⟩
  have b : Returns fmt 1 2 rowv12 Vocab.empty [[1, 2]] (some ⟨.sp ⟨.csr, 2, 1, [((0, 0), 1)]⟩, [1, 2], [2]⟩) := by
    refine ⟨1, one, _, le_refl _, by intro i; simp [one], rfl, ⟨rfl, ?_⟩, rfl⟩
    intro w hw
    exact Or.inl ⟨_, List.mem_singleton.1 hw⟩
  have := h _ _ a b 2 1
  revert this
  decide

/-- Non-vacuity for `C142_partial` and C141: segments of three lines, and of one. -/
example : (∀ xs ∈ segTexts fmt [1, 2, 3, 10, 3], xs.length ≤ max 1 1 ∨ 2 < xs.length) ∧ Constructed rowv12 := by
  refine ⟨by decide, ⟨by unfold Dict.WF; decide, rfl⟩⟩

/-! ## C143 -/

/-- Number of collocates `c` in the context of a token. -/
def inContext (f : Formatter ℓ μ κ) (c : κ) (tok : Token μ) : Nat :=
  (tok.left ++ tok.right).countP (fun y => decide (f.getColloc y.1 = c))

/-- The claim for one file: the co-occurrence count of `t` and `c` is the number of `c` in the contexts of the tokens of `t`. -/
def C143_claim (f : Formatter ℓ μ κ) (L R : Nat) (file : List ℓ) : Prop :=
  ∀ (d : ColData κ) (q : Dict κ (List (Token μ))) (queries : Dict κ (List (Token μ))) (t c : κ),
    updateFile f L R (colCallbacks f Vocab.empty) ⟨[], Vocab.empty⟩ file = .ok d → queries.get? t = some [] →
    updateFile f L R (tokCallbacks f none) queries file = .ok q →
    ∃ toks, q.get? t = some toks ∧ cell d.mtx t c = ((toks.map (inContext f c)).sum : Int)

theorem tokens_cooc (f : Formatter ℓ μ κ) (L R : Nat) (xs : List (μ × Nat)) (t c : κ) (N : Nat) (hN : N ≤ xs.length) :
    ((tokensUpTo f (keepOf none) L R t xs N).map (inContext f c)).sum = coocUpTo f L R (xs.map Prod.fst) t c N := by
  induction N with
  | zero => simp [tokensUpTo, coocUpTo]
  | succ N ih =>
    rw [coocUpTo_succ _ _ _ _ _ _ _ (by simpa using hN), ← ih (by omega)]
    have hx : xs.zipIdx[N]? = some (xs[N], N) := by
      rw [List.getElem?_zipIdx, List.getElem?_eq_getElem hN]; simp
    have hup : tokensUpTo f (keepOf none) L R t xs (N + 1) = tokensUpTo f (keepOf none) L R t xs N ++
        (if f.getType xs[N].1 = t then
          [{ m := xs[N].1, lid := xs[N].2
             left := ((xs.take N).drop (N - L)).filter (fun y => keepOf none (f.getColloc y.1))
             right := ((xs.drop (N + 1)).take R).filter (fun y => keepOf none (f.getColloc y.1)) }]
        else []) := by
      unfold tokensUpTo
      rw [List.take_add_one, hx, List.filterMap_append]
      congr 1
      simp only [Option.toList_some, List.filterMap_cons, List.filterMap_nil]
      split <;> simp_all
    rw [hup, List.map_append, List.sum_append]
    congr 1
    have hty : (xs.map Prod.fst)[N]?.map f.getType = some (f.getType xs[N].1) := by
      rw [List.getElem?_map, List.getElem?_eq_getElem hN]; rfl
    rw [hty]
    have hw := window_count f L R xs c N
    have hl : (winAt L R xs N).left.filterMap id = (xs.take N).drop (N - L) := left_slots L xs N (by omega)
    have hr : (winAt L R xs N).right.filterMap id = (xs.drop (N + 1)).take R := right_slots R xs N
    have hslots : ∀ l : List (Option (μ × Nat)), l.countP (holds f c) = (l.filterMap id).countP (fun y => decide (f.getColloc y.1 = c)) := by
      intro l
      rw [List.countP_filterMap]
      apply List.countP_congr
      intro o _
      cases o <;> simp [holds]
    rw [List.countP_append, hslots, hslots, hl, hr, ← List.countP_append] at hw
    rw [List.length_map, ← hw]
    by_cases ht : f.getType xs[N].1 = t
    · simp [ht, inContext, keepOf]
    · simp [ht]

theorem sum_flatMap_inContext (f : Formatter ℓ μ κ) (L R : Nat) (t c : κ) (segs : List (List (μ × Nat))) :
    ((segs.flatMap (tokensOf f (keepOf none) L R t)).map (inContext f c)).sum =
      (segs.map (fun xs => cooc f L R (xs.map Prod.fst) t c)).sum := by
  induction segs with
  | nil => simp
  | cons xs segs ih =>
    rw [List.flatMap_cons, List.map_append, List.sum_append, ih, List.map_cons, List.sum_cons]
    congr 1
    have e : tokensUpTo f (keepOf none) L R t xs xs.length = tokensOf f (keepOf none) L R t xs := by
      unfold tokensUpTo tokensOf
      rw [List.take_of_length_le (by simp)]
    rw [← e, tokens_cooc f L R xs t c _ (le_refl _), ← coocUpTo_length f L R (xs.map Prod.fst), List.length_map]

/-- **C143 (partial).**  The full claim `C143_claim` is false (`C143_counterexample`).  It holds for files without a segment of 2 to
`R` lines. -/
theorem C143_partial (f : Formatter ℓ μ κ) (L R : Nat) (file : List ℓ)
    (hseg : ∀ xs ∈ segTexts f file, xs.length ≤ 1 ∨ R < xs.length) : C143_claim f L R file := by
  intro d q queries t c hd hq hq'
  obtain ⟨d', h1, h2⟩ := C10_counts_partial f L R Vocab.empty file hseg ⟨[], Vocab.empty⟩
  rw [hd] at h1; injection h1 with h1; subst h1
  have hok : ¬ (R = 0 ∧ [] ∈ segments f file) := by
    intro h
    rw [(C11_tokens_partial f L R none file).2 h queries] at hq'
    cases hq'
  obtain ⟨q', h3, h4⟩ := (C11_tokens_partial f L R none file).1 hok queries
  rw [hq'] at h3; injection h3 with h3; subst h3
  refine ⟨_, by rw [h4, hq]; rfl, ?_⟩
  rw [h2]
  have p : ∀ c : κ, passes (Vocab.empty : Vocab κ) c = true := fun _ => rfl
  have z : cell ([] : Nested κ) t c = 0 := rfl
  simp only [z, p, and_self, if_true, zero_add, List.nil_append]
  rw [sum_flatMap_inContext]
  unfold coocFile segTexts
  rw [List.map_map]
  rfl

/-- In general the contexts are never fewer: what the matrix lacks are the tokens that end a segment of 2 to `R` lines. -/
theorem C143_never_more (f : Formatter ℓ μ κ) (L R : Nat) (file : List ℓ) {d : ColData κ}
    {q queries : Dict κ (List (Token μ))} {t c : κ}
    (hd : updateFile f L R (colCallbacks f Vocab.empty) ⟨[], Vocab.empty⟩ file = .ok d) (hq : queries.get? t = some [])
    (hq' : updateFile f L R (tokCallbacks f none) queries file = .ok q) :
    ∃ toks, q.get? t = some toks ∧ cell d.mtx t c ≤ ((toks.map (inContext f c)).sum : Int) := by
  obtain ⟨d', h1, h2⟩ := C10_exact f L R Vocab.empty ⟨[], Vocab.empty⟩ file
  rw [hd] at h1; injection h1 with h1; subst h1
  have hok : ¬ (R = 0 ∧ [] ∈ segments f file) := by
    intro h
    rw [(C11_tokens_partial f L R none file).2 h queries] at hq'
    cases hq'
  obtain ⟨q', h3, h4⟩ := (C11_tokens_partial f L R none file).1 hok queries
  rw [hq'] at h3; injection h3 with h3; subst h3
  refine ⟨_, by rw [h4, hq]; rfl, ?_⟩
  rw [h2]
  have p : ∀ c : κ, passes (Vocab.empty : Vocab κ) c = true := fun _ => rfl
  have z : cell ([] : Nested κ) t c = 0 := rfl
  simp only [z, p, and_self, if_true, zero_add, List.nil_append]
  rw [sum_flatMap_inContext]
  norm_cast
  unfold segTexts
  rw [List.map_map]
  refine sum_le_sum_map (fun xs _ => Finset.card_le_card ?_)
  intro p hp
  simp only [Finset.mem_filter] at hp ⊢
  exact ⟨hp.1, hp.2.2⟩

/-- **C143 is false**: of two lines with spans (1, 2), the token 2 has the context 1, the matrix does not. -/
theorem C143_counterexample : ¬ C143_claim fmt 1 2 [1, 2] := by
  intro h
  obtain ⟨toks, h1, h2⟩ := h ⟨[(1, [(2, 1)])], ⟨[(2, 1)], false, false⟩⟩ [(2, [⟨2, 2, [(1, 1)], []⟩])] [(2, [])] 2 1 rfl rfl rfl
  simp only [Dict.get?] at h1
  revert h2
  cases h1
  decide

example : (∀ xs ∈ segTexts fmt [1, 2, 1, 10, 3], xs.length ≤ 1 ∨ 2 < xs.length) ∧
    ∃ d q, updateFile fmt 1 2 (colCallbacks fmt Vocab.empty) ⟨[], Vocab.empty⟩ [1, 2, 1, 10, 3] = .ok d ∧
      updateFile fmt 1 2 (tokCallbacks fmt none) [(1, [])] [1, 2, 1, 10, 3] = .ok q ∧ cell d.mtx 1 2 = 2 := by
  refine ⟨by decide, _, _, rfl, rfl, by decide⟩

/-! ## C144 -/

theorem segsFrom_flatten (f : Formatter ℓ μ κ) (cur : List (μ × Nat)) (lid : Nat) (file : List ℓ) :
    (segsFrom f cur lid file).flatten.map Prod.fst = cur.map Prod.fst ++ file.filterMap f.matchLine := by
  induction file generalizing cur lid with
  | nil => simp [segsFrom_nil]
  | cons line file ih =>
    rw [segsFrom_cons, List.filterMap_cons]
    cases h : f.matchLine line with
    | some m => simp only; rw [ih]; simp
    | none =>
      simp only
      split
      · rw [List.flatten_cons, List.map_append, ih]; simp
      · exact ih _ _

/-- The lines of the segments are the matching lines of the file. -/
theorem segments_flatten (f : Formatter ℓ μ κ) (file : List ℓ) :
    (segments f file).flatten.map Prod.fst = file.filterMap f.matchLine := by
  have h := segsFrom_flatten f [] 0 file
  have e : segsFrom f [] 0 file = segments f file := by
    unfold segsFrom segments
    generalize ((file.zipIdx (0 + 1)).filterMap (classify f)).splitOnP Option.isNone = l
    cases l <;> simp
  rw [← e, h]
  rfl

/-- **C144** (one file).  If the tokens of a file are retrieved, each query gets as many tokens as the frequency list of the file
says. -/
theorem C144_file (f : Formatter ℓ μ κ) (L R : Nat) (colv : Option (Vocab κ)) (file : List ℓ)
    {q queries : Dict κ (List (Token μ))} {t : κ} (hq : queries.get? t = some [])
    (hq' : updateFile f L R (tokCallbacks f colv) queries file = .ok q) :
    ∃ toks, q.get? t = some toks ∧ (toks.length : Int) = ((itemFreqFile f file).get? t).getD 0 := by
  have hok : ¬ (R = 0 ∧ [] ∈ segments f file) := by
    intro h
    rw [(C11_tokens_partial f L R colv file).2 h queries] at hq'
    cases hq'
  obtain ⟨q', h3, h4⟩ := (C11_tokens_partial f L R colv file).1 hok queries
  rw [hq'] at h3; injection h3 with h3; subst h3
  refine ⟨_, by rw [h4, hq]; rfl, ?_⟩
  have hlen := congrArg List.length (C11_token_count f L R colv file t)
  rw [List.length_map, ← List.countP_eq_length_filter] at hlen
  have hc : (segments f file).flatten.countP (fun x => decide (f.getType x.1 = t)) =
      (file.filterMap f.matchLine).countP (fun m => decide (f.getType m = t)) := by
    rw [← segments_flatten, List.countP_map]
    rfl
  simp only [List.nil_append]
  rw [hlen, hc, C13_file_freq]
  simp only
  split
  · next h => rw [h]; rfl
  · rfl

end Verif.Cooc
