import Verif.Cooc.PropsLaws
import Mathlib.Algebra.Order.BigOperators.Group.Finset

/-! # Property theorems C153-C154 (bounds of co-occurrence counts, order of the files) -/

set_option linter.unusedSectionVars false

namespace Verif.Cooc
open Verif.Py Verif.Vocab Verif.Corpus Verif.Window Verif.Engine Verif.Matrix

variable {ℓ μ κ : Type} [LinearOrder κ]

/-! ## C153 -/

theorem card_positions {α : Type} (g : α → κ) (t : κ) (xs : List α) :
    ((Finset.range xs.length).filter (fun i => xs[i]?.map g = some t)).card = xs.countP (fun x => decide (g x = t)) := by
  have e : ((Finset.range xs.length).filter (fun i => xs[i]?.map g = some t)).card =
      (List.range xs.length).countP (fun i => decide (xs[i]?.map g = some t)) := by
    rw [List.countP_eq_length_filter]
    rfl
  rw [e]
  induction xs with
  | nil => rfl
  | cons x xs ih =>
    rw [List.length_cons, List.range_succ_eq_map, List.countP_cons, List.countP_map, List.countP_cons]
    have : (fun i => decide (((x :: xs)[i]?).map g = some t)) ∘ Nat.succ = fun i => decide (xs[i]?.map g = some t) := by
      funext i
      simp
    rw [this]
    have ih' := ih (by rw [List.countP_eq_length_filter]; rfl)
    rw [ih']
    simp

/-- At most `n` pairs for every first (second) component with a property. -/
theorem card_window (n L R : Nat) (A B : Nat → Prop) [DecidablePred A] [DecidablePred B] :
    ((Finset.range n ×ˢ Finset.range n).filter (fun p : Nat × Nat => p.1 ≠ p.2 ∧ p.1 ≤ p.2 + L ∧ p.2 ≤ p.1 + R ∧ A p.1 ∧ B p.2)).card ≤
      (L + R) * ((Finset.range n).filter A).card := by
  refine (Finset.card_le_mul_card_image (f := Prod.fst) _ (L + R) ?_).trans (Nat.mul_le_mul_left _ (Finset.card_le_card ?_))
  · intro i _
    have hsub : (((Finset.range n ×ˢ Finset.range n).filter (fun p : Nat × Nat => p.1 ≠ p.2 ∧ p.1 ≤ p.2 + L ∧ p.2 ≤ p.1 + R ∧ A p.1 ∧ B p.2)).filter
        (fun p => p.1 = i)) ⊆ ((Finset.Icc (i - L) (i + R)).erase i).image (fun j => (i, j)) := by
      intro p hp
      simp only [Finset.mem_filter, Finset.mem_image, Finset.mem_erase, Finset.mem_Icc] at hp ⊢
      obtain ⟨⟨_, h1, h2, h3, _⟩, rfl⟩ := hp
      exact ⟨p.2, ⟨fun h => h1 h.symm, by omega, h3⟩, rfl⟩
    refine (Finset.card_le_card hsub).trans (Finset.card_image_le.trans ?_)
    rw [Finset.card_erase_of_mem (by simp), Nat.card_Icc]
    omega
  · intro i hi
    simp only [Finset.mem_image, Finset.mem_filter, Finset.mem_product] at hi ⊢
    obtain ⟨p, ⟨⟨h1, _⟩, _, _, _, h2, _⟩, rfl⟩ := hi
    exact ⟨h1, h2⟩

theorem card_window' (n L R : Nat) (A B : Nat → Prop) [DecidablePred A] [DecidablePred B] :
    ((Finset.range n ×ˢ Finset.range n).filter (fun p : Nat × Nat => p.1 ≠ p.2 ∧ p.1 ≤ p.2 + L ∧ p.2 ≤ p.1 + R ∧ A p.1 ∧ B p.2)).card ≤
      (L + R) * ((Finset.range n).filter B).card := by
  refine le_trans (le_of_eq ?_) ((card_window n R L B A).trans (by rw [Nat.add_comm]))
  refine Finset.card_bij' (fun p _ => (p.2, p.1)) (fun p _ => (p.2, p.1)) ?_ ?_ (fun _ _ => rfl) (fun _ _ => rfl)
  all_goals
    intro p hp
    simp only [Finset.mem_filter, Finset.mem_product] at hp ⊢
    obtain ⟨⟨h1, h2⟩, h3, h4, h5, h6, h7⟩ := hp
    exact ⟨⟨h2, h1⟩, fun h => h3 h.symm, h5, h4, h7, h6⟩

/-- Sets told apart by a name are together not larger than the whole. -/
theorem sum_fibres {β : Type} [DecidableEq β] (P : Finset β) (F : κ → Finset β) (g : β → Option κ)
    (h : ∀ c, F c ⊆ P.filter (fun p => g p = some c)) {cs : List κ} (hcs : cs.Nodup) :
    (cs.map (fun c => (F c).card)).sum ≤ P.card := by
  rw [← List.sum_toFinset _ hcs, ← Finset.card_biUnion]
  · refine Finset.card_le_card ?_
    intro p hp
    obtain ⟨c, _, hc⟩ := Finset.mem_biUnion.1 hp
    exact (Finset.mem_filter.1 (h c hc)).1
  · intro c _ c' _ hne
    refine Finset.disjoint_left.2 (fun p h1 h2 => hne ?_)
    have a := (Finset.mem_filter.1 (h c h1)).2
    have b := (Finset.mem_filter.1 (h c' h2)).2
    exact Option.some.inj (a.symm.trans b)

theorem sum_map_swap {α β : Type} (as : List α) (bs : List β) (F : α → β → Nat) :
    (as.map (fun a => (bs.map (F a)).sum)).sum = (bs.map (fun b => (as.map (fun a => F a b)).sum)).sum := by
  induction as with
  | nil => simp
  | cons a as ih => simp only [List.map_cons, List.sum_cons, ih, List.sum_map_add]

theorem seg_occurrences (f : Formatter ℓ μ κ) (g : μ → κ) (t : κ) (file : List ℓ) :
    ((segTexts f file).map (fun xs => xs.countP (fun m => decide (g m = t)))).sum =
      (file.filterMap f.matchLine).countP (fun m => decide (g m = t)) := by
  rw [← segments_flatten, List.countP_map, List.countP_flatten]
  unfold segTexts
  rw [List.map_map]
  congr 1
  apply List.map_congr_left
  intro xs _
  simp [List.countP_map]

theorem sum_mul_left' {α : Type} (k : Nat) (as : List α) (F : α → Nat) : (as.map (fun a => k * F a)).sum = k * (as.map F).sum := by
  induction as with
  | nil => simp
  | cons a as ih => simp only [List.map_cons, List.sum_cons, ih, Nat.mul_add]

/-- How many matching lines of the files have the name `x` under `g` (type or collocate). -/
def linesWith (f : Formatter ℓ μ κ) (g : μ → κ) (files : List (List ℓ)) (x : κ) : Nat :=
  (files.map (fun file => (file.filterMap f.matchLine).countP (fun m => decide (g m = x)))).sum

theorem total_row (f : Formatter ℓ μ κ) (L R : Nat) (rowv colv : Vocab κ) (files : List (List ℓ)) (t : κ) {cs : List κ} (hcs : cs.Nodup) :
    (cs.map (totalCount f L R rowv colv files t)).sum ≤ (L + R) * linesWith f f.getType files t := by
  have h1 : (cs.map (totalCount f L R rowv colv files t)).sum ≤ (cs.map (fun c => (files.map (fun file => pairCount f L R file t c)).sum)).sum := by
    refine sum_le_sum_map (fun c _ => ?_)
    unfold totalCount
    split
    · exact le_refl _
    · exact Nat.zero_le _
  refine h1.trans ?_
  rw [sum_map_swap]
  unfold linesWith
  rw [← sum_mul_left']
  refine sum_le_sum_map (fun file _ => ?_)
  unfold pairCount
  rw [sum_map_swap, ← seg_occurrences, ← sum_mul_left']
  refine sum_le_sum_map (fun xs _ => ?_)
  rw [← card_positions]
  refine (sum_fibres _ _ (fun p : Nat × Nat => xs[p.2]?.map f.getColloc) ?_ hcs).trans
    (card_window xs.length L R (fun i => xs[i]?.map f.getType = some t) (fun _ => True))
  intro c p hp
  simp only [Finset.mem_filter] at hp ⊢
  obtain ⟨h1, _, h3, h4, h5, h6, h7⟩ := hp
  exact ⟨⟨h1, h3, h4, h5, h6, trivial⟩, h7⟩

theorem total_col (f : Formatter ℓ μ κ) (L R : Nat) (rowv colv : Vocab κ) (files : List (List ℓ)) (c : κ) {ts : List κ} (hts : ts.Nodup) :
    (ts.map (fun t => totalCount f L R rowv colv files t c)).sum ≤ (L + R) * linesWith f f.getColloc files c := by
  have h1 : (ts.map (fun t => totalCount f L R rowv colv files t c)).sum ≤ (ts.map (fun t => (files.map (fun file => pairCount f L R file t c)).sum)).sum := by
    refine sum_le_sum_map (fun t _ => ?_)
    unfold totalCount
    split
    · exact le_refl _
    · exact Nat.zero_le _
  refine h1.trans ?_
  rw [sum_map_swap]
  unfold linesWith
  rw [← sum_mul_left']
  refine sum_le_sum_map (fun file _ => ?_)
  unfold pairCount
  rw [sum_map_swap, ← seg_occurrences, ← sum_mul_left']
  refine sum_le_sum_map (fun xs _ => ?_)
  rw [← card_positions]
  refine (sum_fibres _ _ (fun p : Nat × Nat => xs[p.1]?.map f.getType) ?_ hts).trans
    (card_window' xs.length L R (fun _ => True) (fun i => xs[i]?.map f.getColloc = some c))
  intro t p hp
  simp only [Finset.mem_filter] at hp ⊢
  obtain ⟨h1, _, h3, h4, h5, h6, h7⟩ := hp
  exact ⟨⟨h1, h3, h4, h5, trivial, h7⟩, h6⟩

theorem linesWith_freq (f : Formatter ℓ μ κ) {files : List (List ℓ)} {v : Vocab κ} (hv : ReturnsFreq f files v) (t : κ) :
    (linesWith f f.getType files t : Int) = (v.freq.get? t).getD 0 := by
  obtain ⟨W, as, s, rs, h1, h2, h3, rfl⟩ := hv
  rw [C01_freq_list f W files as s rs h1 h2 h3]
  have e : linesWith f f.getType files t = (files.map (occurrences f t)).sum := by
    unfold linesWith
    congr 1
    apply List.map_congr_left
    intro file _
    unfold occurrences
    rw [List.countP_filterMap]
    apply List.countP_congr
    intro line _
    cases f.matchLine line <;> simp
  rw [e]
  simp only
  split
  · rfl
  · next h => simp only [Option.getD_none]; omega

/-- **C153.**  For a matrix built by `build_col_freq` and a frequency list built by `build_item_freq` from the same files: the counts
of a type with any different collocates add up to at most its frequency times the sum of the spans, so that no single count is
larger; the counts of a collocate add up to at most the number of its occurrences times the sum of the spans. -/
theorem C153_bounds {f : Formatter ℓ μ κ} {L R : Nat} {rowv colv : Vocab κ} (hrw : Constructed rowv) (hc : Constructed colv)
    {files : List (List ℓ)} {r : Option (Mtx κ Int)} (h : Returns f L R rowv colv files r) {v : Vocab κ} (hv : ReturnsFreq f files v) :
    (∀ t (cs : List κ), cs.Nodup → (cs.map (countIn r t)).sum ≤ (L + R) * (v.freq.get? t).getD 0) ∧
    (∀ t c, countIn r t c ≤ (L + R) * (v.freq.get? t).getD 0) ∧
    (∀ c (ts : List κ), ts.Nodup → (ts.map (fun t => countIn r t c)).sum ≤ (L + R) * (linesWith f f.getColloc files c : Int)) := by
  have k := h.isResult hrw hc
  have e : ∀ t c, countIn r t c = totalCount f L R rowv colv files t c := fun t c => k.countIn t c
  have row : ∀ t (cs : List κ), cs.Nodup → (cs.map (countIn r t)).sum ≤ (L + R) * (v.freq.get? t).getD 0 := by
    intro t cs hcs
    rw [← linesWith_freq f hv]
    have := total_row f L R rowv colv files t hcs
    have e' : (cs.map (countIn r t)).sum = ((cs.map (totalCount f L R rowv colv files t)).sum : Nat) := by
      rw [cast_sum, List.map_map]
      exact congrArg _ (List.map_congr_left (fun c _ => e t c))
    rw [e']
    exact_mod_cast this
  refine ⟨row, fun t c => ?_, ?_⟩
  · have := row t [c] (by simp)
    simpa using this
  · intro c ts hts
    have := total_col f L R rowv colv files c hts
    have e' : (ts.map (fun t => countIn r t c)).sum = ((ts.map (fun t => totalCount f L R rowv colv files t c)).sum : Nat) := by
      rw [cast_sum, List.map_map]
      exact congrArg _ (List.map_congr_left (fun t _ => e t c))
    rw [e']
    exact_mod_cast this

/-! ## C154 -/

/-- **C154.**  The order in which the files are given makes no difference: neither to the matrix, names and their order included,
nor to the frequency list. -/
theorem C154_order {f : Formatter ℓ μ κ} {L R : Nat} {rowv colv : Vocab κ} (hrw : Constructed rowv) (hc : Constructed colv)
    {a b : List (List ℓ)} (hab : a.Perm b) {ra rb : Option (Mtx κ Int)} (ha : Returns f L R rowv colv a ra)
    (hb : Returns f L R rowv colv b rb) :
    (ra = none ∧ rb = none) ∨ ∃ m n, ra = some m ∧ rb = some n ∧ SameNamed m n := by
  have ka := ha.isResult hrw hc
  have kb := hb.isResult hrw hc
  have e : ∀ t c, totalCount f L R rowv colv a t c = totalCount f L R rowv colv b t c := fun t c => totalCount_perm f L R rowv colv hab t c
  cases ra with
  | none =>
    cases rb with
    | none => exact .inl ⟨rfl, rfl⟩
    | some n =>
      obtain ⟨t, c, hpos⟩ := kb.2
      have := ka t c
      rw [← e] at hpos
      omega
  | some m =>
    cases rb with
    | none =>
      obtain ⟨t, c, hpos⟩ := ka.2
      have := kb t c
      rw [e] at hpos
      omega
    | some n => exact .inr ⟨m, n, rfl, rfl, IsCounts.same e ka.1 kb.1⟩

theorem C154_freq {f : Formatter ℓ μ κ} {a b : List (List ℓ)} (hab : a.Perm b) {va vb : Vocab κ} (ha : ReturnsFreq f a va)
    (hb : ReturnsFreq f b vb) (k : κ) : va.freq.get? k = vb.freq.get? k := by
  obtain ⟨W1, as1, s1, r1, a1, a2, a3, rfl⟩ := ha
  obtain ⟨W2, as2, s2, r2, b1, b2, b3, rfl⟩ := hb
  rw [C01_freq_list f W1 a as1 s1 r1 a1 a2 a3, C01_freq_list f W2 b as2 s2 r2 b1 b2 b3, (hab.map (occurrences f k)).sum_eq]

/-- Non-vacuity: one file of three lines. -/
example : Constructed rowv12 ∧ Constructed (Vocab.empty : Vocab Nat) ∧
    Returns fmt 1 1 rowv12 Vocab.empty [[1, 2]] (some ⟨.sp ⟨.csr, 2, 2, [((0, 1), 1), ((1, 0), 1)]⟩, [1, 2], [1, 2]⟩) ∧
    ReturnsFreq fmt [[1, 2]] (mk' [(1, 1), (2, 1)]) := by
  refine ⟨⟨by unfold Dict.WF; decide, rfl⟩, ⟨by unfold Dict.WF; decide, rfl⟩, ?_, ?_⟩
  · refine ⟨1, one, _, le_refl _, by intro i; simp [one], rfl, ⟨rfl, ?_⟩, rfl⟩
    intro w hw
    exact Or.inl ⟨_, List.mem_singleton.1 hw⟩
  · refine ⟨1, one, _, [[(1, 1), (2, 1)]], rfl, ⟨rfl, ?_⟩, rfl, rfl⟩
    intro w hw
    exact Or.inl ⟨_, List.mem_singleton.1 hw⟩

end Verif.Cooc
