import Verif.Cbc.PropsStep1
import Verif.Cbc.PropsCondensed
import Verif.Cbc.PropsRounds
import Verif.Matrix.Lemmas

/-!
# C171: the clusters of similar words and their scores
-/

set_option linter.unusedSectionVars false

namespace Verif.Cbc
open Verif.Py

variable {K E : Type} [Field K] [LinearOrder K] [LinearOrder E]

/-- Specification: what the `metric` argument multiplies the average with. -/
def Weight (root : Nat → K) (metric : String) (n : Nat) (w : K) : Prop :=
  (metric = "without_size" ∧ w = 1) ∨ (metric = "with_size" ∧ w = n) ∨ (metric = "with_size_sqrt" ∧ w = root n)

/-- The average over all ordered pairs of different members. -/
def pairAverage (S : Nat → Nat → K) (ids : List Nat) : K :=
  orderedSum S ids / (ids.length * (ids.length - 1 : Nat) : Nat)

theorem condensed_sub (n : Nat) (S : Nat → Nat → K) :
    (Condensed n (fun i j => 1 - S i j)).map (fun d => 1 - d) = Condensed n S := by
  unfold Condensed
  rw [List.map_flatMap]
  congr 1
  funext i
  rw [List.map_map]
  congr 1
  funext d
  simp

theorem scoreStep_ok {root : Nat → K} {metric : String} (hm : ∃ n w, Weight root metric n w)
    (st : List (K × List Nat) × Option (List Nat) × K) (x : List Nat × K) : ∃ st', scoreStep root metric st x = .ok st' := by
  unfold scoreStep
  split
  · exact ⟨_, rfl⟩
  · have : ∃ s, weigh root metric x.1.length x.2 = .ok s := by
      unfold weigh
      obtain ⟨n, w, h | h | h⟩ := hm
      · rw [h.1, if_neg (by decide), if_neg (by decide), if_pos rfl]; exact ⟨_, rfl⟩
      · rw [h.1, if_neg (by decide), if_pos rfl]; exact ⟨_, rfl⟩
      · rw [h.1, if_pos rfl]; exact ⟨_, rfl⟩
    obtain ⟨s, hs⟩ := this
    rw [hs]
    simp only [bind, Except.bind]
    split <;> exact ⟨_, rfl⟩

theorem foldlM_scoreStep_ok {root : Nat → K} {metric : String} (hm : ∃ n w, Weight root metric n w)
    (avgs : List (List Nat × K)) : ∀ st, ∃ st', avgs.foldlM (scoreStep root metric) st = .ok st' := by
  induction avgs with
  | nil => intro st; exact ⟨st, rfl⟩
  | cons x avgs ih =>
    intro st
    obtain ⟨st1, h1⟩ := scoreStep_ok hm st x
    obtain ⟨st2, h2⟩ := ih st1
    exact ⟨st2, by rw [List.foldlM_cons, h1]; exact h2⟩

theorem scoreCluster_succeeds {root : Nat → K} {metric : String} (hm : ∃ n w, Weight root metric n w) (clusters : List (List Nat))
    (simmx : List K) (h : ∀ ids ∈ clusters, ∃ a, avgsimOf simmx ids = .ok a) (highest : Bool) :
    ∃ r, scoreCluster root clusters simmx metric highest = .ok r := by
  unfold scoreCluster
  choose! g hg using h
  rw [Verif.Matrix.mapM_ok_of _ (fun ids => (ids, g ids)) clusters (fun ids hi => by rw [hg ids hi]; rfl)]
  obtain ⟨st', h'⟩ := foldlM_scoreStep_ok hm (clusters.map (fun ids => (ids, g ids))) ([], none, 0)
  simp only [bind, Except.bind, h']
  cases highest <;> exact ⟨_, rfl⟩

theorem remap_ok (subitems glbitems : List E) (hsub : ∀ e ∈ subitems, e ∈ glbitems) (p : K × List Nat)
    (hp : ∀ i ∈ p.2, i < subitems.length) : remap subitems glbitems p = .ok (p.1, names subitems p.2) := by
  obtain ⟨g, h1, _, _, h4⟩ := C48_remap p.2 subitems glbitems hp hsub
  unfold remap
  rw [h1]
  simp only [bind, Except.bind]
  rw [h4, itemsAt_ok.2 ⟨hp, rfl⟩]
  rfl

theorem names_range {α : Type} (items : List α) : names items (List.range items.length) = items := by
  unfold names
  induction items using List.reverseRecOn with
  | nil => rfl
  | append_singleton l a ih =>
    rw [List.length_append, List.length_singleton, List.range_succ, List.filterMap_append]
    congr 1
    · conv_rhs => rw [← ih]
      refine List.filterMap_congr (fun i hi => ?_)
      rw [List.getElem?_append_left (List.mem_range.1 hi)]
    · simp

/-- **C171.** `n` similar words with the pairwise similarities `S` (the matrix holds one minus the similarity), one label
per word, a known metric: the call succeeds; the clusters are the groups of words with the same label and together have
every word exactly once; the score of a single word is -1, that of a larger cluster its average pairwise similarity,
weighted as the metric says. -/
theorem C171_clusters [IsStrictOrderedRing K] (root : Nat → K) (subitems glbitems : List E)
    (hsub : ∀ e ∈ subitems, e ∈ glbitems) (S : Nat → Nat → K) (hS : ∀ i j, S i j = S j i) (labels : List Nat)
    (hl : labels.length = subitems.length) (metric : String) (hm : ∃ n w, Weight root metric n w) :
    ∃ r, clusterSimilar root subitems glbitems (Condensed subitems.length (fun i j => 1 - S i j)) labels metric false = .ok r ∧
      (r.flatMap Prod.snd).Perm subitems ∧
      (∀ p ∈ r, ∃ c ∈ labels, ∃ ids, ids = (List.range subitems.length).filter (fun i => decide (labels[i]? = some c)) ∧
        List.Forall₂ (fun i e => subitems[i]? = some e) ids p.2 ∧
        (p.2.length = 1 → p.1 = -1) ∧
        (p.2.length ≠ 1 → ∃ w, Weight root metric p.2.length w ∧ p.1 = w * pairAverage S ids)) ∧
      ∀ c ∈ labels, ∃ p ∈ r, List.Forall₂ (fun i e => subitems[i]? = some e)
        ((List.range subitems.length).filter (fun i => decide (labels[i]? = some c))) p.2 := by
  obtain ⟨hk, hmem, hperm, hne⟩ := C48_partition labels
  have hpos : ∀ ids ∈ (groupLabels labels).values, ∃ c ∈ labels, ids = positions labels c := by
    intro ids hi
    obtain ⟨q, hq, rfl⟩ := List.mem_map.1 hi
    exact ⟨q.1, (hmem q.1 q.2).1 hq⟩
  have hlt : ∀ c, ∀ i ∈ positions labels c, i < subitems.length := by
    intro c i hi
    have := List.mem_range.1 (List.mem_filter.1 hi).1
    omega
  have havg : ∀ ids ∈ (groupLabels labels).values, ids.length ≠ 1 →
      averageSimilarity ids (Condensed subitems.length S) = .ok (pairAverage S ids) := by
    intro ids hi h1
    obtain ⟨c, hc, rfl⟩ := hpos ids hi
    have h0 := List.length_pos_iff.2 (hne _ hi)
    exact C47_average subitems.length S hS _ (List.nodup_range.filter _) (hlt c) (by omega)
  have hforall : ∀ ids, (∀ i ∈ ids, i < subitems.length) →
      List.Forall₂ (fun i e => subitems[i]? = some e) ids (names subitems ids) := by
    intro ids
    induction ids with
    | nil => intro _; exact .nil
    | cons i ids ih =>
      intro h
      have hi : subitems[i]? = some (subitems[i]'(h i (by simp))) := List.getElem?_eq_getElem _
      unfold names
      rw [List.filterMap_cons]
      simp only [hi]
      exact .cons hi (ih (fun j hj => h j (by simp [hj])))
  unfold clusterSimilar
  simp only
  by_cases hg : groupLabels labels = []
  · rw [if_pos hg]
    have hlab : labels = [] := by
      rw [hg] at hperm
      have := hperm.length_eq
      simp [Dict.values] at this
      exact List.length_eq_zero_iff.1 this.symm
    subst hlab
    have : subitems = [] := List.length_eq_zero_iff.1 hl.symm
    subst this
    exact ⟨[], rfl, by simp, by simp, by simp⟩
  · rw [if_neg hg, condensed_sub]
    obtain ⟨scored, hsc⟩ := scoreCluster_succeeds hm (groupLabels labels).values (Condensed subitems.length S)
      (fun ids hi => by
        unfold avgsimOf
        split
        · exact ⟨1, rfl⟩
        · next h1 => exact ⟨_, havg ids hi h1⟩) false
    obtain ⟨hs1, hs2⟩ := C48_scores root _ _ metric none scored hsc
    have hin : ∀ p ∈ scored, p.2 ∈ (groupLabels labels).values := by
      intro p hp
      rw [← hs1]
      exact List.mem_map.2 ⟨p, hp, rfl⟩
    have hlt' : ∀ p ∈ scored, ∀ i ∈ p.2, i < subitems.length := by
      intro p hp
      obtain ⟨c, _, e⟩ := hpos _ (hin p hp)
      rw [e]
      exact hlt c
    rw [hsc]
    simp only [bind, Except.bind]
    rw [Verif.Matrix.mapM_ok_of _ (fun p => (p.1, names subitems p.2)) scored
      (fun p hp => remap_ok subitems glbitems hsub p (hlt' p hp))]
    refine ⟨_, rfl, ?_, ?_, ?_⟩
    · have e1 : (scored.map (fun p => (p.1, names subitems p.2))).flatMap Prod.snd =
          names subitems ((groupLabels labels).values.flatten) := by
        rw [← hs1]
        unfold names
        rw [List.flatMap_map, List.filterMap_flatten, List.map_map]
        rfl
      rw [e1]
      have := hperm.filterMap (fun i => subitems[i]?)
      rw [hl] at this
      refine this.trans (List.Perm.of_eq ?_)
      exact names_range subitems
    · intro q hq
      obtain ⟨p, hp, rfl⟩ := List.mem_map.1 hq
      obtain ⟨c, hc, e⟩ := hpos _ (hin p hp)
      refine ⟨c, hc, p.2, by rw [e, ← hl]; rfl, hforall p.2 (hlt' p hp), ?_, ?_⟩
      · have hlen := (hforall p.2 (hlt' p hp)).length_eq
        simp only
        rw [← hlen]
        intro h1
        rcases hs2 p hp with h | h
        · exact h.2
        · exact absurd h1 h.1
      · have hlen := (hforall p.2 (hlt' p hp)).length_eq
        simp only
        rw [← hlen]
        intro h1
        rcases hs2 p hp with h | ⟨_, a, ha, h⟩
        · exact absurd h.1 h1
        · rw [havg _ (hin p hp) h1] at ha
          obtain rfl := Except.ok.inj ha
          rcases h with h | h | h
          · exact ⟨1, .inl ⟨h.1, rfl⟩, by rw [h.2, one_mul]⟩
          · exact ⟨_, .inr (.inl ⟨h.1, rfl⟩), h.2⟩
          · exact ⟨_, .inr (.inr ⟨h.1, rfl⟩), h.2⟩
    · intro c hc
      have hv : positions labels c ∈ (groupLabels labels).values :=
        List.mem_map.2 ⟨(c, positions labels c), (hmem c _).2 ⟨hc, rfl⟩, rfl⟩
      rw [← hs1] at hv
      obtain ⟨p, hp, e⟩ := List.mem_map.1 hv
      refine ⟨_, List.mem_map.2 ⟨p, hp, rfl⟩, ?_⟩
      have := hforall p.2 (hlt' p hp)
      rw [e] at this
      rw [← hl]
      simp only
      rw [e]
      exact this

/-- **C171**, a position outside the items is an `IndexError`, a word that the matrix does not have a `KeyError`. -/
theorem C171_index (items : List E) (ids : List Nat) (i : Nat) (hi : i ∈ ids) (h : items.length ≤ i) :
    itemsAt items ids = .error .index := by
  unfold itemsAt
  induction ids with
  | nil => simp at hi
  | cons j ids ih =>
    rw [List.mapM_cons]
    cases hj : items[j]? with
    | none => rfl
    | some e =>
      rcases List.mem_cons.1 hi with rfl | hi
      · rw [List.getElem?_eq_none h] at hj; cases hj
      · simp only [bind, Except.bind]
        rw [ih hi]

/-- Words 5, 6, 7 with labels 1, 2, 1 and all similarities 1/2. -/
example : clusterSimilar (K := ℚ) (fun n => n) [5, 6, 7] [7, 6, 5, 4] [1/2, 1/2, 1/2] [1, 2, 1] "with_size" false
    = .ok [(1, [5, 7]), (-1, [6])] := by decide +kernel

end Verif.Cbc
