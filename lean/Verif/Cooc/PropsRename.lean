import Verif.Cooc.PropsRepeat

/-! # Property theorem C218 (words are only compared with each other) -/

set_option linter.unusedSectionVars false

namespace Verif.Cooc
open Verif.Py Verif.Vocab Verif.Corpus Verif.Window Verif.Engine Verif.Matrix

variable {ℓ μ ℓ' μ' κ κ' : Type} [LinearOrder κ] [LinearOrder κ']

noncomputable section

/-! ### Specification -/

/-- A sentence with types renamed by `h` and collocates by `g`. -/
def renamed (h g : κ → κ') (zs : List (κ × κ)) : List (κ' × κ') := zs.map (fun z => (h z.1, g z.2))

/-- The items of the vocabulary, renamed. -/
def RenamedVocab (h : κ → κ') (v : Vocab κ) (v' : Vocab κ') : Prop := v'.freq.keys.Perm (v.freq.keys.map h)

/-! ### Proof -/

theorem pairsOf_renamed {h g : κ → κ'} (hh : Function.Injective h) (hg : Function.Injective g) (L R : Nat) (t c : κ) (zs : List (κ × κ)) :
    pairsOf L R (h t) (g c) (renamed h g zs) = pairsOf L R t c zs := by
  unfold pairsOf renamed
  rw [List.length_map]
  congr 1
  refine Finset.filter_congr (fun p _ => ?_)
  simp only [List.getElem?_map, Option.map_map]
  have e1 : ((zs[p.1]?.map (Prod.fst ∘ fun z => (h z.1, g z.2))) = some (h t)) ↔ zs[p.1]?.map Prod.fst = some t := by
    cases zs[p.1]? with
    | none => simp
    | some z => simp [hh.eq_iff]
  have e2 : ((zs[p.2]?.map (Prod.snd ∘ fun z => (h z.1, g z.2))) = some (g c)) ↔ zs[p.2]?.map Prod.snd = some c := by
    cases zs[p.2]? with
    | none => simp
    | some z => simp [hg.eq_iff]
  rw [e1, e2]

theorem wanted_renamed {h g : κ → κ'} (hh : Function.Injective h) (hg : Function.Injective g) {rowv colv : Vocab κ} {rowv' colv' : Vocab κ'}
    (hr : RenamedVocab h rowv rowv') (hc : RenamedVocab g colv colv') (t c : κ) :
    Wanted rowv' colv' (h t) (g c) ↔ Wanted rowv colv t c := by
  unfold Wanted
  unfold RenamedVocab at hr hc
  have e : colv'.freq = [] ↔ colv.freq = [] := by
    rw [← keys_eq_nil, ← keys_eq_nil, hc.length_eq, List.length_map]
  rw [hr.mem_iff, hc.mem_iff, List.mem_map_of_injective hh, List.mem_map_of_injective hg, e]

theorem totalCount_renamed {f : Formatter ℓ μ κ} {f' : Formatter ℓ' μ' κ'} {h g : κ → κ'} (hh : Function.Injective h)
    (hg : Function.Injective g) {a : List (List ℓ)} {b : List (List ℓ')} (hab : (sentencesOf f' b).Perm ((sentencesOf f a).map (renamed h g)))
    {rowv colv : Vocab κ} {rowv' colv' : Vocab κ'} (hr : RenamedVocab h rowv rowv') (hc : RenamedVocab g colv colv') (L R : Nat) (t c : κ) :
    totalCount f' L R rowv' colv' b (h t) (g c) = totalCount f L R rowv colv a t c := by
  rw [totalCount_sentences, totalCount_sentences, (hab.map _).sum_eq, List.map_map]
  have e : (pairsOf L R (h t) (g c)) ∘ renamed h g = pairsOf L R t c := by
    funext zs
    exact pairsOf_renamed hh hg L R t c zs
  rw [e]
  by_cases hw : Wanted rowv colv t c
  · rw [if_pos hw, if_pos ((wanted_renamed hh hg hr hc t c).2 hw)]
  · rw [if_neg hw, if_neg (fun x => hw ((wanted_renamed hh hg hr hc t c).1 x))]

/-- Only renamed items have counts. -/
theorem totalCount_renamed_only {f : Formatter ℓ μ κ} {f' : Formatter ℓ' μ' κ'} {h g : κ → κ'} {a : List (List ℓ)} {b : List (List ℓ')}
    (hab : (sentencesOf f' b).Perm ((sentencesOf f a).map (renamed h g))) {L R : Nat} {rowv' colv' : Vocab κ'} {T C : κ'}
    (hpos : 0 < totalCount f' L R rowv' colv' b T C) : ∃ t c, T = h t ∧ C = g c := by
  rw [totalCount_sentences] at hpos
  split at hpos
  · rw [(hab.map _).sum_eq, List.map_map] at hpos
    have : ∃ x ∈ (sentencesOf f a).map (pairsOf L R T C ∘ renamed h g), 0 < x := by
      by_contra hcon
      push Not at hcon
      have h0 : ((sentencesOf f a).map (pairsOf L R T C ∘ renamed h g)).sum = 0 := List.sum_eq_zero (fun x hx => Nat.le_zero.1 (hcon x hx))
      omega
    obtain ⟨x, hx, hx0⟩ := this
    obtain ⟨zs, -, rfl⟩ := List.mem_map.1 hx
    obtain ⟨p, hp⟩ := Finset.card_pos.1 hx0
    obtain ⟨-, -, -, -, -, h1, h2⟩ := Finset.mem_filter.1 hp
    simp only [renamed, List.getElem?_map, Option.map_map] at h1 h2
    obtain ⟨z1, -, e1⟩ := Option.map_eq_some_iff.1 h1
    obtain ⟨z2, -, e2⟩ := Option.map_eq_some_iff.1 h2
    exact ⟨z1.1, z2.2, e1.symm, e2.symm⟩
  · omega

theorem sorted_renamed {h : κ → κ'} {l : List κ} {l' : List κ'} (hp : l'.Perm (l.map h)) (hl : l.Pairwise (· ≤ ·)) (hl' : l'.Pairwise (· ≤ ·))
    (hm : Monotone h) : l' = l.map h :=
  eq_of_perm_of_pairwise (fun _ _ _ _ x y => le_antisymm x y) hp hl' (hl.map h (fun _ _ x => hm x))

/-- **C218**, counts: rename the types and the collocates of a corpus, each with an injective function, and the vocabularies with them.
The matrix has the renamed rows and columns, and the same counts for them; and in the same order if the new names sort like the old
ones. -/
theorem C218_counts {f : Formatter ℓ μ κ} {f' : Formatter ℓ' μ' κ'} {h g : κ → κ'} (hh : Function.Injective h) (hg : Function.Injective g)
    {a : List (List ℓ)} {b : List (List ℓ')} (hab : (sentencesOf f' b).Perm ((sentencesOf f a).map (renamed h g))) {rowv colv : Vocab κ}
    {rowv' colv' : Vocab κ'} (hr : RenamedVocab h rowv rowv') (hc : RenamedVocab g colv colv') (c1 : Constructed rowv) (c2 : Constructed colv)
    (c1' : Constructed rowv') (c2' : Constructed colv') {L R : Nat} {ra : Option (Mtx κ Int)} {rb : Option (Mtx κ' Int)}
    (ha : Returns f L R rowv colv a ra) (hb : Returns f' L R rowv' colv' b rb) :
    (ra = none ∧ rb = none) ∨ ∃ m n, ra = some m ∧ rb = some n ∧ n.rows.Perm (m.rows.map h) ∧ n.cols.Perm (m.cols.map g) ∧
      (Monotone h → n.rows = m.rows.map h) ∧ (Monotone g → n.cols = m.cols.map g) ∧ ∀ t c, entry n (h t) (g c) = entry m t c := by
  have ka := ha.isResult c1 c2
  have kb := hb.isResult c1' c2'
  have e := totalCount_renamed hh hg hab hr hc L R
  cases ra with
  | none =>
    cases rb with
    | none => exact .inl ⟨rfl, rfl⟩
    | some n =>
      obtain ⟨T, C, hpos⟩ := kb.2
      obtain ⟨t, c, rfl, rfl⟩ := totalCount_renamed_only hab hpos
      rw [e] at hpos
      have := ka t c
      omega
  | some m =>
    cases rb with
    | none =>
      obtain ⟨t, c, hpos⟩ := ka.2
      have := kb (h t) (g c)
      rw [e] at this
      omega
    | some n =>
      have prow : n.rows.Perm (m.rows.map h) := by
        rw [kb.1.rows, ka.1.rows]
        exact ((sortedBy_perm id _).trans hr).trans ((sortedBy_perm id _).map h).symm
      have enil : colv'.freq = [] ↔ colv.freq = [] := by
        rw [← keys_eq_nil, ← keys_eq_nil, hc.length_eq, List.length_map]
      have pcol : n.cols.Perm (m.cols.map g) := by
        refine (List.perm_ext_iff_of_nodup kb.1.valid.cols (ka.1.valid.cols.map hg)).2 (fun C => ?_)
        rw [kb.1.cols, List.mem_map]
        by_cases hn : colv.freq = []
        · rw [if_pos (enil.2 hn)]
          constructor
          · rintro ⟨T, hpos⟩
            obtain ⟨t, c, rfl, rfl⟩ := totalCount_renamed_only hab hpos
            rw [e] at hpos
            exact ⟨c, (ka.1.cols c).2 (by rw [if_pos hn]; exact ⟨t, hpos⟩), rfl⟩
          · rintro ⟨c, hcm, rfl⟩
            have := (ka.1.cols c).1 hcm
            rw [if_pos hn] at this
            obtain ⟨t, ht⟩ := this
            exact ⟨h t, by rw [e]; exact ht⟩
        · rw [if_neg (fun x => hn (enil.1 x)), hc.mem_iff, List.mem_map]
          refine exists_congr (fun c => and_congr_left (fun _ => ?_))
          rw [ka.1.cols, if_neg hn]
      refine .inr ⟨m, n, rfl, rfl, prow, pcol, fun hm => ?_, fun hm => sorted_renamed pcol ka.1.sorted kb.1.sorted hm, fun t c => ?_⟩
      · refine sorted_renamed prow ?_ ?_ hm
        · rw [ka.1.rows]; exact itemList_sorted _
        · rw [kb.1.rows]; exact itemList_sorted _
      · rw [kb.1.entry, ka.1.entry, e]

/-- **C218**, frequencies: a renamed type has the frequency of the type, and no other has one. -/
theorem C218_freq {f : Formatter ℓ μ κ} {f' : Formatter ℓ' μ' κ'} {h g : κ → κ'} (hh : Function.Injective h) {a : List (List ℓ)}
    {b : List (List ℓ')} (hab : (sentencesOf f' b).Perm ((sentencesOf f a).map (renamed h g))) {va : Vocab κ} {vb : Vocab κ'}
    (ha : ReturnsFreq f a va) (hb : ReturnsFreq f' b vb) :
    (∀ k, vb.freq.get? (h k) = va.freq.get? k) ∧ ∀ K, K ∉ Set.range h → vb.freq.get? K = none := by
  obtain ⟨W1, as1, s1, r1, a1, a2, a3, rfl⟩ := ha
  obtain ⟨W2, as2, s2, r2, b1, b2, b3, rfl⟩ := hb
  constructor
  · intro k
    rw [C01_freq_list f W1 a as1 s1 r1 a1 a2 a3, C01_freq_list f' W2 b as2 s2 r2 b1 b2 b3, occurrences_sentences, occurrences_sentences,
      (hab.map _).sum_eq, List.map_map]
    have e : (List.countP (fun z : κ' × κ' => decide (z.1 = h k))) ∘ renamed h g = List.countP (fun z : κ × κ => decide (z.1 = k)) := by
      funext zs
      simp only [Function.comp, renamed, List.countP_map]
      refine List.countP_congr (fun z _ => ?_)
      simp [hh.eq_iff]
    rw [e]
  · intro K hK
    rw [C01_freq_list f' W2 b as2 s2 r2 b1 b2 b3, occurrences_sentences, (hab.map _).sum_eq, List.map_map]
    have e : ((sentencesOf f a).map ((List.countP (fun z : κ' × κ' => decide (z.1 = K))) ∘ renamed h g)).sum = 0 := by
      refine List.sum_eq_zero (fun x hx => ?_)
      obtain ⟨zs, -, rfl⟩ := List.mem_map.1 hx
      simp only [Function.comp, renamed, List.countP_map]
      rw [List.countP_eq_zero]
      intro z _
      simp only [Function.comp, decide_eq_true_eq]
      exact fun hz => hK ⟨z.1, hz⟩
    rw [e]
    rfl

/-- **C218**, scores: weighted with their own sums, both fail or both return, and a renamed pair has the score of the pair. -/
theorem C218_scores {f : Formatter ℓ μ κ} {f' : Formatter ℓ' μ' κ'} {h g : κ → κ'} (hh : Function.Injective h) (hg : Function.Injective g)
    {a : List (List ℓ)} {b : List (List ℓ')} (hab : (sentencesOf f' b).Perm ((sentencesOf f a).map (renamed h g))) {rowv colv : Vocab κ}
    {rowv' colv' : Vocab κ'} (hr : RenamedVocab h rowv rowv') (hc : RenamedVocab g colv colv') (c1 : Constructed rowv) (c2 : Constructed colv)
    (c1' : Constructed rowv') (c2' : Constructed colv') {L R : Nat} {m : Mtx κ Int} {n : Mtx κ' Int}
    (ha : Returns f L R rowv colv a (some m)) (hb : Returns f' L R rowv' colv' b (some n)) (meas : String) :
    ((∀ u, weighted m meas ≠ .ok u) ∧ ∀ w, weighted n meas ≠ .ok w) ∨
      ∃ u w, weighted m meas = .ok u ∧ weighted n meas = .ok w ∧ u.rows = m.rows ∧ u.cols = m.cols ∧ w.rows = n.rows ∧ w.cols = n.cols ∧
        ∀ t ∈ m.rows, ∀ c ∈ m.cols, entry w (h t) (g c) = entry u t c := by
  have ka := (ha.isResult c1 c2).1
  have kb := (hb.isResult c1' c2').1
  have za := ha.noZero c1 c2
  have zb := hb.noZero c1' c2'
  rcases C218_counts hh hg hab hr hc c1 c2 c1' c2' ha hb with ⟨x, -⟩ | ⟨m', n', hm', hn', prow, pcol, -, -, hent⟩
  · cases x
  cases hm'; cases hn'
  have lrow : n.rows.length = m.rows.length := by rw [prow.length_eq, List.length_map]
  have lcol : n.cols.length = m.cols.length := by rw [pcol.length_eq, List.length_map]
  by_cases hl : m.rows.length = 1 ∨ m.cols.length = 1
  · left
    rw [C191_single ka.valid hl, C191_single kb.valid (by rw [lrow, lcol]; exact hl)]
    exact ⟨fun u h => (nomatch h), fun u h => (nomatch h)⟩
  push Not at hl
  obtain ⟨sm, hsm, -⟩ := ka.csr
  obtain ⟨sn, hsn, -⟩ := kb.csr
  obtain ⟨am, om⟩ := weighted_cells ka.valid hsm za (k := ⟨totalCount f L R rowv colv a, m.rows, m.cols⟩) rfl rfl
    (fun t _ c _ => ka.entry t c) hl.1 hl.2 meas
  obtain ⟨an, on⟩ := weighted_cells kb.valid hsn zb (k := ⟨totalCount f' L R rowv' colv' b, n.rows, n.cols⟩) rfl rfl
    (fun t _ c _ => kb.entry t c) (by rw [lrow]; exact hl.1) (by rw [lcol]; exact hl.2) meas
  have e := totalCount_renamed hh hg hab hr hc L R
  generalize totalCount f L R rowv colv a = p at *
  generalize totalCount f' L R rowv' colv' b = q at *
  have r1 : ∀ t, Counts.row (⟨q, n.rows, n.cols⟩ : Counts κ') (h t) = Counts.row ⟨p, m.rows, m.cols⟩ t := fun t => by
    unfold Counts.row
    simp only
    rw [(pcol.map _).sum_eq, List.map_map]
    exact congrArg _ (List.map_congr_left (fun c _ => e t c))
  have r2 : ∀ c, Counts.col (⟨q, n.rows, n.cols⟩ : Counts κ') (g c) = Counts.col ⟨p, m.rows, m.cols⟩ c := fun c => by
    unfold Counts.col
    simp only
    rw [(prow.map _).sum_eq, List.map_map]
    exact congrArg _ (List.map_congr_left (fun t _ => e t c))
  have r3 : Counts.all (⟨q, n.rows, n.cols⟩ : Counts κ') = Counts.all ⟨p, m.rows, m.cols⟩ := by
    unfold Counts.all
    simp only
    rw [(prow.map _).sum_eq, List.map_map]
    exact congrArg _ (List.map_congr_left (fun t _ => r1 t))
  have htab : ∀ t c, tableAt (⟨q, n.rows, n.cols⟩ : Counts κ') (h t) (g c) = tableAt ⟨p, m.rows, m.cols⟩ t c := by
    intro t c
    unfold tableAt
    rw [r1, r2, r3]
    simp only [e]
  have mrow : ∀ T, T ∈ n.rows ↔ ∃ t ∈ m.rows, h t = T := fun T => by rw [prow.mem_iff, List.mem_map]
  have mcol : ∀ C, C ∈ n.cols ↔ ∃ c ∈ m.cols, g c = C := fun C => by rw [pcol.mem_iff, List.mem_map]
  have iff : (∃ w, weighted n meas = .ok w) ↔ ∃ u, weighted m meas = .ok u := by
    rw [an, am]
    refine exists_congr (fun μ => and_congr_right (fun _ => ⟨fun H t ht c hc hp => ?_, fun H T hT C hC hp => ?_⟩))
    · have := H (h t) ((mrow _).2 ⟨t, ht, rfl⟩) (g c) ((mcol _).2 ⟨c, hc, rfl⟩) (by show 0 < q (h t) (g c); rw [e]; exact hp)
      rwa [htab] at this
    · obtain ⟨t, ht, rfl⟩ := (mrow T).1 hT
      obtain ⟨c, hc, rfl⟩ := (mcol C).1 hC
      rw [htab]
      exact H t ht c hc (by show 0 < p t c; rw [← e]; exact hp)
  by_cases hu : ∃ u, weighted m meas = .ok u
  · right
    obtain ⟨w, hw⟩ := iff.2 hu
    obtain ⟨u, hu⟩ := hu
    obtain ⟨u1, u2, μ1, hμ1, hc1⟩ := om u hu
    obtain ⟨w1, w2, μ2, hμ2, hc2⟩ := on w hw
    rw [hμ1] at hμ2
    cases hμ2
    refine ⟨u, w, hu, hw, u1, u2, w1, w2, fun t ht c hc => ?_⟩
    obtain ⟨z1, z2⟩ := hc1 t ht c hc
    obtain ⟨y1, y2⟩ := hc2 (h t) ((mrow _).2 ⟨t, ht, rfl⟩) (g c) ((mcol _).2 ⟨c, hc, rfl⟩)
    simp only [e, htab] at y1 y2
    rcases Nat.eq_zero_or_pos (p t c) with h0 | h0
    · rw [z1 h0, y1 h0]
    · have := z2 h0
      rw [y2 h0] at this
      exact Except.ok.inj this
  · left
    exact ⟨fun u x => hu ⟨u, x⟩, fun w x => hu (iff.1 ⟨w, x⟩)⟩

/-- Non-vacuity: 1, 2, 3 are called 9, 8, 7 (which sort the other way), as types, and keep their names as collocates. -/
example : (sentencesOf (⟨fun n => if n = 10 then none else some (n % 10), fun n => n == 10, fun n => 10 - n, fun n => n⟩ : Formatter Nat Nat Nat)
      [[3, 1], [1, 2]]).Perm ((sentencesOf fmt [[1, 2, 10, 3, 1]]).map (renamed (fun n : Nat => if n ≤ 10 then 10 - n else n) id)) ∧
    Function.Injective (fun n : Nat => if n ≤ 10 then 10 - n else n) := by
  constructor
  · have h0 : sentencesOf fmt [[1, 2, 10, 3, 1]] = [[(1, 1), (2, 2)], [(3, 3), (1, 1)]] := by decide +kernel
    have h1 : sentencesOf (⟨fun n => if n = 10 then none else some (n % 10), fun n => n == 10, fun n => 10 - n, fun n => n⟩ : Formatter Nat Nat Nat)
      [[3, 1], [1, 2]] = [[(7, 3), (9, 1)], [(9, 1), (8, 2)]] := by decide +kernel
    rw [h0, h1]
    exact List.Perm.swap _ _ _
  · intro a b x
    simp only at x
    split at x <;> split at x <;> omega

end
end Verif.Cooc
