import Verif.Cooc.PropsBounds

/-! # Property theorem C173 (counts by coarser names are sums of counts by finer names) -/

set_option linter.unusedSectionVars false

namespace Verif.Cooc
open Verif.Py Verif.Vocab Verif.Corpus Verif.Window Verif.Engine Verif.Matrix

variable {ℓ μ κ κ' : Type} [LinearOrder κ] [LinearOrder κ']

/-- `f'` reads the same lines as `f` and gives coarser names: what `f` calls `t` (a type) is called `h t`, what it calls `c` (a
collocate) is called `g c`; for instance lemma instead of lemma and part of speech. -/
structure Coarser (f : Formatter ℓ μ κ) (f' : Formatter ℓ μ κ') (h g : κ → κ') : Prop where
  lines : f'.matchLine = f.matchLine
  seps : f'.isSep = f.isSep
  types : ∀ m, f'.getType m = h (f.getType m)
  collocs : ∀ m, f'.getColloc m = g (f.getColloc m)

theorem Coarser.segTexts {f : Formatter ℓ μ κ} {f' : Formatter ℓ μ κ'} {h g : κ → κ'} (H : Coarser f f' h g) (file : List ℓ) :
    segTexts f' file = segTexts f file := by
  unfold Window.segTexts segments
  have : (classify f' : ℓ × Nat → _) = classify f := by
    funext line
    unfold classify
    rw [H.lines, H.seps]
  rw [this]

/-- The pairs of positions that are counted in a segment, for the names `t` and `c`. -/
def segCount (f : Formatter ℓ μ κ) (L R : Nat) (xs : List μ) (t c : κ) : Nat :=
  ((Finset.range xs.length ×ˢ Finset.range xs.length).filter (fun p : Nat × Nat =>
    (xs.length ≤ R → p.1 + 1 < xs.length) ∧ p.1 ≠ p.2 ∧ p.1 ≤ p.2 + L ∧ p.2 ≤ p.1 + R ∧
    xs[p.1]?.map f.getType = some t ∧ xs[p.2]?.map f.getColloc = some c)).card

theorem segCount_coarse {f : Formatter ℓ μ κ} {f' : Formatter ℓ μ κ'} {h g : κ → κ'} (H : Coarser f f' h g) (L R : Nat)
    (xs : List μ) (T C : κ') (A B : Finset κ) (hA : ∀ t ∈ A, h t = T) (hB : ∀ c ∈ B, g c = C)
    (hA' : ∀ m ∈ xs, h (f.getType m) = T → f.getType m ∈ A) (hB' : ∀ m ∈ xs, g (f.getColloc m) = C → f.getColloc m ∈ B) :
    segCount f' L R xs T C = ∑ t ∈ A, ∑ c ∈ B, segCount f L R xs t c := by
  rw [← Finset.sum_product']
  unfold segCount
  rw [Finset.card_eq_sum_card_fiberwise (f := fun p : Nat × Nat => (xs[p.1]?.map f.getType, xs[p.2]?.map f.getColloc))
    (t := (A ×ˢ B).image (fun q : κ × κ => (some q.1, some q.2)))]
  · rw [Finset.sum_image (by rintro ⟨a, b⟩ _ ⟨a', b'⟩ _ e; simpa using e)]
    refine Finset.sum_congr rfl ?_
    rintro ⟨t, c⟩ hq
    simp only [Finset.mem_product] at hq
    congr 1
    ext p
    simp only [Finset.mem_filter, Prod.mk.injEq]
    constructor
    · rintro ⟨⟨h1, h2, h3, h4, h5, h6, h7⟩, h8, h9⟩
      exact ⟨h1, h2, h3, h4, h5, h8, h9⟩
    · rintro ⟨h1, h2, h3, h4, h5, h8, h9⟩
      refine ⟨⟨h1, h2, h3, h4, h5, ?_, ?_⟩, h8, h9⟩
      · cases hx : xs[p.1]? with
        | none => rw [hx] at h8; cases h8
        | some m =>
          rw [hx] at h8
          simp only [Option.map_some, Option.some.injEq] at h8 ⊢
          rw [H.types, h8, hA t hq.1]
      · cases hx : xs[p.2]? with
        | none => rw [hx] at h9; cases h9
        | some m =>
          rw [hx] at h9
          simp only [Option.map_some, Option.some.injEq] at h9 ⊢
          rw [H.collocs, h9, hB c hq.2]
  · intro p hp
    simp only [Finset.coe_filter, Set.mem_ofPred_eq] at hp
    obtain ⟨h1, h2, h3, h4, h5, h6, h7⟩ := hp
    simp only [Finset.coe_image, Set.mem_image, Finset.mem_coe, Finset.mem_product, Prod.mk.injEq, Prod.exists]
    cases hx : xs[p.1]? with
    | none => rw [hx] at h6; cases h6
    | some m =>
      cases hy : xs[p.2]? with
      | none => rw [hy] at h7; cases h7
      | some n =>
        rw [hx] at h6
        rw [hy] at h7
        simp only [Option.map_some, Option.some.injEq] at h6 h7
        rw [H.types] at h6
        rw [H.collocs] at h7
        exact ⟨_, _, ⟨hA' m (List.mem_of_getElem? hx) h6, hB' n (List.mem_of_getElem? hy) h7⟩, rfl, rfl⟩

theorem sum_list_finset {α β : Type} (l : List α) (A : Finset β) (F : α → β → Nat) :
    (l.map (fun a => ∑ b ∈ A, F a b)).sum = ∑ b ∈ A, (l.map (fun a => F a b)).sum := by
  induction l with
  | nil => simp
  | cons a l ih => simp only [List.map_cons, List.sum_cons, ih, Finset.sum_add_distrib]

/-- The matching lines of the files. -/
def matched (f : Formatter ℓ μ κ) (files : List (List ℓ)) : List μ := files.flatMap (fun file => file.filterMap f.matchLine)

theorem mem_matched {f : Formatter ℓ μ κ} {files : List (List ℓ)} {file : List ℓ} (hf : file ∈ files) {xs : List μ}
    (hx : xs ∈ segTexts f file) {m : μ} (hm : m ∈ xs) : m ∈ matched f files := by
  refine List.mem_flatMap.2 ⟨file, hf, ?_⟩
  rw [← segments_flatten]
  unfold segTexts at hx
  obtain ⟨ys, hy, rfl⟩ := List.mem_map.1 hx
  obtain ⟨y, hy', rfl⟩ := List.mem_map.1 hm
  exact List.mem_map.2 ⟨y, List.mem_flatten.2 ⟨ys, hy, hy'⟩, rfl⟩

theorem pairs_coarse {f : Formatter ℓ μ κ} {f' : Formatter ℓ μ κ'} {h g : κ → κ'} (H : Coarser f f' h g) (L R : Nat)
    (files : List (List ℓ)) (T C : κ') (A B : Finset κ) (hA : ∀ t ∈ A, h t = T) (hB : ∀ c ∈ B, g c = C)
    (hA' : ∀ m ∈ matched f files, h (f.getType m) = T → f.getType m ∈ A)
    (hB' : ∀ m ∈ matched f files, g (f.getColloc m) = C → f.getColloc m ∈ B) :
    (files.map (fun file => pairCount f' L R file T C)).sum =
      ∑ t ∈ A, ∑ c ∈ B, (files.map (fun file => pairCount f L R file t c)).sum := by
  rw [← Finset.sum_product', ← sum_list_finset]
  congr 1
  apply List.map_congr_left
  intro file hf
  show ((segTexts f' file).map (fun xs => segCount f' L R xs T C)).sum =
    ∑ q ∈ A ×ˢ B, ((segTexts f file).map (fun xs => segCount f L R xs q.1 q.2)).sum
  rw [← sum_list_finset, H.segTexts]
  congr 1
  apply List.map_congr_left
  intro xs hx
  rw [segCount_coarse H L R xs T C A B hA hB (fun m hm => hA' m (mem_matched hf hx hm)) (fun m hm => hB' m (mem_matched hf hx hm)),
    Finset.sum_product']

/-- What is counted with names that do not occur is nothing. -/
theorem pairs_absent (f : Formatter ℓ μ κ) (L R : Nat) (files : List (List ℓ)) (t c : κ)
    (h : (∀ m ∈ matched f files, f.getType m ≠ t) ∨ ∀ m ∈ matched f files, f.getColloc m ≠ c) :
    (files.map (fun file => pairCount f L R file t c)).sum = 0 := by
  refine List.sum_eq_zero (fun n hn => ?_)
  obtain ⟨file, hf, rfl⟩ := List.mem_map.1 hn
  refine List.sum_eq_zero (fun n hn => ?_)
  obtain ⟨xs, hx, rfl⟩ := List.mem_map.1 hn
  rw [Finset.card_eq_zero, Finset.filter_eq_empty_iff]
  rintro p _ ⟨_, _, _, _, h6, h7⟩
  rcases h with h | h
  · cases hy : xs[p.1]? with
    | none => rw [hy] at h6; cases h6
    | some m =>
      rw [hy] at h6
      exact h m (mem_matched hf hx (List.mem_of_getElem? hy)) (Option.some.inj h6)
  · cases hy : xs[p.2]? with
    | none => rw [hy] at h7; cases h7
    | some m =>
      rw [hy] at h7
      exact h m (mem_matched hf hx (List.mem_of_getElem? hy)) (Option.some.inj h7)

/-- The vocabularies ask for the same lines under both names: a line's type is a row under the finer name exactly if it is one
under the coarser, and so for its collocate (an empty column vocabulary asks for all). -/
structure SameRequest (f : Formatter ℓ μ κ) (h g : κ → κ') (files : List (List ℓ)) (rowv colv : Vocab κ) (rowv' colv' : Vocab κ') :
    Prop where
  rows : ∀ m ∈ matched f files, f.getType m ∈ rowv.freq.keys ↔ h (f.getType m) ∈ rowv'.freq.keys
  cols : ∀ m ∈ matched f files, (colv.freq = [] ∨ f.getColloc m ∈ colv.freq.keys) ↔
    (colv'.freq = [] ∨ g (f.getColloc m) ∈ colv'.freq.keys)

theorem total_coarse {f : Formatter ℓ μ κ} {f' : Formatter ℓ μ κ'} {h g : κ → κ'} (H : Coarser f f' h g) (L R : Nat)
    {files : List (List ℓ)} {rowv colv : Vocab κ} {rowv' colv' : Vocab κ'} (S : SameRequest f h g files rowv colv rowv' colv')
    (T C : κ') (A B : Finset κ) (hA : ∀ t ∈ A, h t = T) (hB : ∀ c ∈ B, g c = C)
    (hA' : ∀ m ∈ matched f files, h (f.getType m) = T → f.getType m ∈ A)
    (hB' : ∀ m ∈ matched f files, g (f.getColloc m) = C → f.getColloc m ∈ B) :
    totalCount f' L R rowv' colv' files T C = ∑ t ∈ A, ∑ c ∈ B, totalCount f L R rowv colv files t c := by
  have hterm : ∀ t ∈ A, ∀ c ∈ B, totalCount f L R rowv colv files t c =
      if Wanted rowv' colv' T C then (files.map (fun file => pairCount f L R file t c)).sum else 0 := by
    intro t ht c hc
    unfold totalCount
    by_cases hmt : ∃ m ∈ matched f files, f.getType m = t
    · by_cases hmc : ∃ m ∈ matched f files, f.getColloc m = c
      · obtain ⟨m, hm, rfl⟩ := hmt
        obtain ⟨n, hn, rfl⟩ := hmc
        have e : Wanted rowv colv (f.getType m) (f.getColloc n) ↔ Wanted rowv' colv' T C := by
          unfold Wanted
          rw [S.rows m hm, S.cols n hn, hA _ ht, hB _ hc]
        simp only [e]
      · rw [pairs_absent f L R files t c (Or.inr (fun m hm e => hmc ⟨m, hm, e⟩))]
        simp
    · rw [pairs_absent f L R files t c (Or.inl (fun m hm e => hmt ⟨m, hm, e⟩))]
      simp
  rw [Finset.sum_congr rfl (fun t ht => Finset.sum_congr rfl (hterm t ht))]
  unfold totalCount
  split
  · exact pairs_coarse H L R files T C A B hA hB hA' hB'
  · simp

/-- **C173** (matrices).  If two calls read the same files with the same spans, one with coarser names, and ask for the same lines,
then either both find nothing, or each entry of the coarser matrix is the sum of the entries of the finer matrix over the rows and
columns that have these names. -/
theorem C173_matrix {f : Formatter ℓ μ κ} {f' : Formatter ℓ μ κ'} {h g : κ → κ'} (H : Coarser f f' h g) {L R : Nat}
    {files : List (List ℓ)} {rowv colv : Vocab κ} {rowv' colv' : Vocab κ'} (hrw : Constructed rowv) (hc : Constructed colv)
    (hrw' : Constructed rowv') (hc' : Constructed colv') (S : SameRequest f h g files rowv colv rowv' colv')
    {r : Option (Mtx κ Int)} {r' : Option (Mtx κ' Int)} (hr : Returns f L R rowv colv files r)
    (hr' : Returns f' L R rowv' colv' files r') :
    (r = none ∧ r' = none) ∨ ∃ m m', r = some m ∧ r' = some m' ∧ ∀ T C, entry m' T C =
      ((m.rows.filter (fun t => decide (h t = T))).map (fun t =>
        ((m.cols.filter (fun c => decide (g c = C))).map (entry m t)).sum)).sum := by
  have k := hr.isResult hrw hc
  have k' := hr'.isResult hrw' hc'
  -- all names of lines, and all names that are rows or columns
  have all : ∀ (rows cols : List κ) (T C : κ'), totalCount f' L R rowv' colv' files T C =
      ∑ t ∈ (((matched f files).map f.getType ++ rows).filter (fun t => decide (h t = T))).toFinset,
        ∑ c ∈ (((matched f files).map f.getColloc ++ cols).filter (fun c => decide (g c = C))).toFinset,
          totalCount f L R rowv colv files t c := by
    intro rows cols T C
    refine total_coarse H L R S T C _ _ ?_ ?_ ?_ ?_
    · intro t ht
      have := (List.mem_filter.1 (List.mem_toFinset.1 ht)).2
      simpa using this
    · intro c hcm
      have := (List.mem_filter.1 (List.mem_toFinset.1 hcm)).2
      simpa using this
    · intro m hm e
      refine List.mem_toFinset.2 (List.mem_filter.2 ⟨List.mem_append_left _ (List.mem_map_of_mem hm), by simpa using e⟩)
    · intro m hm e
      refine List.mem_toFinset.2 (List.mem_filter.2 ⟨List.mem_append_left _ (List.mem_map_of_mem hm), by simpa using e⟩)
  cases r with
  | none =>
    left
    refine ⟨rfl, ?_⟩
    cases r' with
    | none => rfl
    | some m' =>
      obtain ⟨T, C, hp⟩ := k'.2
      rw [all [] [] T C, Finset.sum_eq_zero (fun t _ => Finset.sum_eq_zero (fun c _ => k t c))] at hp
      omega
  | some m =>
    right
    have hne : r' ≠ none := by
      rintro rfl
      obtain ⟨t, c, hp⟩ := k.2
      have h0 := k' (h t) (g c)
      rw [all [t] [c] (h t) (g c)] at h0
      have h1 := Finset.sum_eq_zero_iff.1 h0 t (by simp)
      have h2 := Finset.sum_eq_zero_iff.1 h1 c (by simp)
      omega
    obtain ⟨m', rfl⟩ := Option.ne_none_iff_exists'.1 hne
    refine ⟨m, m', rfl, rfl, fun T C => ?_⟩
    have hv := k.1.valid
    rw [k'.1.entry, all m.rows m.cols T C]
    have er : ((m.rows.filter (fun t => decide (h t = T))).map (fun t =>
        ((m.cols.filter (fun c => decide (g c = C))).map (entry m t)).sum)).sum =
        ∑ t ∈ (m.rows.filter (fun t => decide (h t = T))).toFinset,
          ∑ c ∈ (m.cols.filter (fun c => decide (g c = C))).toFinset, entry m t c := by
      rw [← List.sum_toFinset _ (hv.rows.filter _)]
      exact Finset.sum_congr rfl (fun t _ => (List.sum_toFinset _ (hv.cols.filter _)).symm)
    rw [er]
    push_cast
    symm
    have sub : ∀ (t : κ), ∑ c ∈ (m.cols.filter (fun c => decide (g c = C))).toFinset, entry m t c =
        ∑ c ∈ (((matched f files).map f.getColloc ++ m.cols).filter (fun c => decide (g c = C))).toFinset,
          ((totalCount f L R rowv colv files t c : Nat) : Int) := by
      intro t
      rw [Finset.sum_congr rfl (fun c _ => k.1.entry t c)]
      refine Finset.sum_subset ?_ ?_
      · intro c hcm
        rw [List.mem_toFinset, List.mem_filter] at hcm ⊢
        exact ⟨List.mem_append_right _ hcm.1, hcm.2⟩
      · intro c hcm hn
        rw [List.mem_toFinset, List.mem_filter] at hcm hn
        rw [← k.1.entry]
        exact entry_col_absent t (fun hmem => hn ⟨hmem, hcm.2⟩)
    rw [Finset.sum_congr rfl (fun t _ => sub t)]
    refine Finset.sum_subset ?_ ?_
    · intro t ht
      rw [List.mem_toFinset, List.mem_filter] at ht ⊢
      exact ⟨List.mem_append_right _ ht.1, ht.2⟩
    · intro t ht hn
      rw [List.mem_toFinset, List.mem_filter] at ht hn
      refine Finset.sum_eq_zero (fun c _ => ?_)
      rw [← k.1.entry]
      exact entry_row_absent (fun hmem => hn ⟨hmem, ht.2⟩) c

theorem linesWith_coarse {f : Formatter ℓ μ κ} {f' : Formatter ℓ μ κ'} {h g : κ → κ'} (H : Coarser f f' h g) (files : List (List ℓ))
    (T : κ') (A : Finset κ) (hA : ∀ t ∈ A, h t = T) (hA' : ∀ m ∈ matched f files, h (f.getType m) = T → f.getType m ∈ A) :
    linesWith f' f'.getType files T = ∑ t ∈ A, linesWith f f.getType files t := by
  unfold linesWith
  rw [← sum_list_finset]
  congr 1
  apply List.map_congr_left
  intro file hf
  rw [H.lines]
  have hin : ∀ m ∈ file.filterMap f.matchLine, h (f.getType m) = T → f.getType m ∈ A :=
    fun m hm => hA' m (List.mem_flatMap.2 ⟨file, hf, hm⟩)
  generalize file.filterMap f.matchLine = ms at hin
  induction ms with
  | nil => simp
  | cons m ms ih =>
    simp only [List.countP_cons, Finset.sum_add_distrib]
    rw [ih (fun x hx => hin x (List.mem_cons_of_mem _ hx))]
    congr 1
    by_cases e : h (f.getType m) = T
    · rw [if_pos (by simpa [H.types] using e), Finset.sum_eq_single (f.getType m)]
      · simp
      · intro b _ hb
        rw [if_neg (by simpa using fun e => hb e.symm)]
      · exact fun hn => absurd (hin m (by simp) e) hn
    · rw [if_neg (by simpa [H.types] using e)]
      symm
      refine Finset.sum_eq_zero (fun b hb => if_neg ?_)
      simp only [decide_eq_true_eq]
      rintro rfl
      exact e (hA _ hb)

/-- **C173** (frequency lists).  The frequency of a coarser name is the sum of the frequencies of the finer names it stands for. -/
theorem C173_freq {f : Formatter ℓ μ κ} {f' : Formatter ℓ μ κ'} {h g : κ → κ'} (H : Coarser f f' h g) {files : List (List ℓ)}
    {v : Vocab κ} {v' : Vocab κ'} (hv : ReturnsFreq f files v) (hv' : ReturnsFreq f' files v') (T : κ') :
    (v'.freq.get? T).getD 0 = ((v.freq.filter (fun e => decide (h e.1 = T))).map Prod.snd).sum := by
  have hw : v.freq.WF := by
    obtain ⟨_, _, _, rs, _, _, _, rfl⟩ := hv
    exact mergeFreqs_WF rs
  rw [← linesWith_freq f' hv', linesWith_coarse H files T
    (((matched f files).map f.getType ++ v.freq.keys).filter (fun t => decide (h t = T))).toFinset
    (fun t ht => by simpa using (List.mem_filter.1 (List.mem_toFinset.1 ht)).2)
    (fun m hm e => List.mem_toFinset.2 (List.mem_filter.2 ⟨List.mem_append_left _ (List.mem_map_of_mem hm), by simpa using e⟩))]
  push_cast
  rw [Finset.sum_congr rfl (fun t _ => linesWith_freq f hv t)]
  have e1 : ((v.freq.filter (fun e => decide (h e.1 = T))).map Prod.snd).sum =
      ((v.freq.keys.filter (fun t => decide (h t = T))).map (fun t => (v.freq.get? t).getD 0)).sum := by
    have : v.freq.keys.filter (fun t => decide (h t = T)) = (v.freq.filter (fun e => decide (h e.1 = T))).map Prod.fst := by
      unfold Dict.keys
      rw [List.filter_map]
      rfl
    rw [this, List.map_map]
    congr 1
    apply List.map_congr_left
    intro e he
    have := Dict.get?_of_mem hw (List.mem_filter.1 he).1
    simp [this]
  rw [e1, ← List.sum_toFinset _ (List.Nodup.filter _ hw)]
  symm
  refine Finset.sum_subset ?_ ?_
  · intro t ht
    rw [List.mem_toFinset, List.mem_filter] at ht ⊢
    exact ⟨List.mem_append_right _ ht.1, ht.2⟩
  · intro t ht hn
    rw [List.mem_toFinset, List.mem_filter] at ht hn
    have : v.freq.get? t = none := by
      rw [Dict.get?_eq_none_iff]
      exact fun hk => hn ⟨hk, ht.2⟩
    rw [this]
    rfl

/-! ### A concrete case: 1 and 2 are both called 1, and 3 is called 2 -/

def coarse : Formatter Nat Nat Nat :=
  { fmt with getType := fun n => (n % 10 + 1) / 2, getColloc := fun n => (n % 10 + 1) / 2 }

def rowv123 : Vocab Nat := ⟨[(1, 1), (2, 1), (3, 1)], true, false⟩

example : Coarser fmt coarse (fun t => (t + 1) / 2) (fun t => (t + 1) / 2) ∧
    SameRequest fmt (fun t => (t + 1) / 2) (fun t => (t + 1) / 2) [[1, 2, 3]] rowv123 Vocab.empty rowv12 Vocab.empty ∧
    Constructed rowv123 ∧
    Returns fmt 1 1 rowv123 Vocab.empty [[1, 2, 3]]
      (some ⟨.sp ⟨.csr, 3, 3, [((0, 1), 1), ((1, 0), 1), ((1, 2), 1), ((2, 1), 1)]⟩, [1, 2, 3], [1, 2, 3]⟩) ∧
    Returns coarse 1 1 rowv12 Vocab.empty [[1, 2, 3]]
      (some ⟨.sp ⟨.csr, 2, 2, [((0, 0), 2), ((0, 1), 1), ((1, 0), 1)]⟩, [1, 2], [1, 2]⟩) := by
  refine ⟨⟨rfl, rfl, fun _ => rfl, fun _ => rfl⟩, ⟨by decide, by decide⟩, ⟨by unfold Dict.WF; decide, rfl⟩, ?_, ?_⟩
  · refine ⟨1, one, _, le_refl _, by intro i; simp [one], rfl, ⟨rfl, ?_⟩, rfl⟩
    intro w hw
    exact Or.inl ⟨_, List.mem_singleton.1 hw⟩
  · refine ⟨1, one, _, le_refl _, by intro i; simp [one], rfl, ⟨rfl, ?_⟩, rfl⟩
    intro w hw
    exact Or.inl ⟨_, List.mem_singleton.1 hw⟩

end Verif.Cooc
