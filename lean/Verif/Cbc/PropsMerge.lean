import Verif.Cbc.Merge
import Mathlib.Data.List.Nodup
import Mathlib.Data.List.Range
import Mathlib.Data.List.Perm.Basic
import Mathlib.Data.List.Perm.Lattice
import Mathlib.Data.List.Perm.Subperm
import Mathlib.Data.List.NodupEquivFin
import Mathlib.Data.Int.Order.Basic

/-!
# C43: merging committees
-/

set_option linter.unusedSectionVars false

namespace Verif.Cbc

variable {K : Type} [LinearOrder K]

/-- NumPy's contract of `argsort` on row `i`: a permutation of the column numbers, similarities increasing. -/
def IsArgsort (n : Nat) (sim : Nat → Nat → K) (order : Nat → List Nat) : Prop :=
  ∀ i < n, (order i).Perm (List.range n) ∧ (order i).Pairwise (fun a b => sim i a ≤ sim i b)

/-- All indices named by a list of pairs. -/
def named (l : List (Nat × Option Nat)) : List Nat :=
  l.flatMap (fun p => p.1 :: p.2.toList)

/-- Committee `j` is still free when committee `i` is looked at: it comes later, and no earlier committee has
been merged with it. -/
def FreeAt (n : Nat) (res : List (Nat × Option Nat)) (i j : Nat) : Prop :=
  i < j ∧ j < n ∧ ∀ i' < i, (i', some j) ∉ res

/-! ## Invariant -/

theorem findFree_some {sortidx merged : List Nat} {i t : Nat} (h : findFree sortidx i merged = some t) :
    t ∈ candidates sortidx ∧ i < t ∧ t ∉ merged := by
  have h1 := List.mem_of_find?_eq_some h
  have h2 := List.find?_some h
  simp at h2
  exact ⟨h1, h2.1, h2.2⟩

theorem findFree_none {sortidx merged : List Nat} {i : Nat} (h : findFree sortidx i merged = none) :
    ∀ t ∈ candidates sortidx, i < t → t ∈ merged := by
  intro t ht hit
  have := List.find?_eq_none.1 h t ht
  simp at this
  exact this hit

theorem mem_of_candidates {l : List Nat} {t : Nat} (h : t ∈ candidates l) : t ∈ l := by
  have := (List.dropLast_sublist _).subset h
  exact List.mem_reverse.1 (List.mem_of_mem_drop this)

/-- What holds after the rounds `0 … m-1`. -/
structure MergeInv (n : Nat) (sim : Nat → Nat → K) (order : Nat → List Nat) (theta : K) (m : Nat)
    (st : MergeState) : Prop where
  fsts : ∀ p ∈ st.mergecomms, p.1 < m
  merged_iff : ∀ j, j ∈ st.merged ↔ ∃ i, (i, some j) ∈ st.mergecomms
  lt : ∀ i j, (i, some j) ∈ st.mergecomms → i < j ∧ j < n ∧ theta ≤ sim i j
  nodup : (named st.mergecomms).Nodup
  all : ∀ i < m, i ∈ named st.mergecomms
  chosen : ∀ i o, (i, o) ∈ st.mergecomms →
    ∃ merged : List Nat, (∀ j, j ∈ merged ↔ ∃ i' < i, (i', some j) ∈ st.mergecomms) ∧
      ((findFree (order i) i merged = none ∧ o = none) ∨
       (∃ k, findFree (order i) i merged = some k ∧ sim i k < theta ∧ o = none) ∨
       (∃ k, findFree (order i) i merged = some k ∧ theta ≤ sim i k ∧ o = some k))

theorem named_append (l : List (Nat × Option Nat)) (p : Nat × Option Nat) :
    named (l ++ [p]) = named l ++ (p.1 :: p.2.toList) := by
  simp [named]

theorem mem_named {l : List (Nat × Option Nat)} {x : Nat} :
    x ∈ named l ↔ ∃ p ∈ l, x = p.1 ∨ p.2 = some x := by
  simp [named, List.mem_flatMap]

/-- Adding one more pair for `m` keeps the invariant. -/
theorem MergeInv.push {n : Nat} {sim : Nat → Nat → K} {order : Nat → List Nat} {theta : K} {m : Nat}
    {st : MergeState} (h : MergeInv n sim order theta m st) (hm : m ∉ st.merged)
    (o : Option Nat) (merged' : List Nat)
    (ho : ∀ k, o = some k → m < k ∧ k < n ∧ theta ≤ sim m k ∧ k ∉ st.merged)
    (hmg : ∀ j, j ∈ merged' ↔ j ∈ st.merged ∨ o = some j)
    (hch : (findFree (order m) m st.merged = none ∧ o = none) ∨
       (∃ k, findFree (order m) m st.merged = some k ∧ sim m k < theta ∧ o = none) ∨
       (∃ k, findFree (order m) m st.merged = some k ∧ theta ≤ sim m k ∧ o = some k)) :
    MergeInv n sim order theta (m + 1) ⟨merged', st.mergecomms ++ [(m, o)]⟩ where
  fsts := by
    intro p hp
    simp only [List.mem_append, List.mem_singleton] at hp
    rcases hp with hp | rfl
    · exact Nat.lt_succ_of_lt (h.fsts p hp)
    · exact Nat.lt_succ_self _
  merged_iff := by
    intro j
    simp only [List.mem_append, List.mem_singleton, Prod.mk.injEq]
    rw [hmg, h.merged_iff]
    constructor
    · rintro (⟨i, hi⟩ | ho')
      · exact ⟨i, .inl hi⟩
      · exact ⟨m, .inr ⟨rfl, ho'.symm⟩⟩
    · rintro ⟨i, hi | ⟨_, hi⟩⟩
      · exact .inl ⟨i, hi⟩
      · exact .inr hi.symm
  lt := by
    intro i j hij
    simp only [List.mem_append, List.mem_singleton, Prod.mk.injEq] at hij
    rcases hij with hij | ⟨rfl, hij⟩
    · exact h.lt i j hij
    · obtain ⟨a, b, c, _⟩ := ho j hij.symm
      exact ⟨a, b, c⟩
  nodup := by
    rw [named_append]
    refine List.nodup_append.2 ⟨h.nodup, ?_, ?_⟩
    · cases o with
      | none => simp
      | some k =>
        have := (ho k rfl).1
        simp; omega
    · intro x hx y hy e
      subst e
      obtain ⟨p, hp, hx⟩ := mem_named.1 hx
      rcases List.mem_cons.1 hy with rfl | hy
      · rcases hx with hx | hx
        · exact absurd (h.fsts p hp) (by omega)
        · exact hm ((h.merged_iff _).2 ⟨p.1, by rw [← hx]; exact hp⟩)
      · have hox : o = some x := by simpa using hy
        obtain ⟨a, b, _, d⟩ := ho x hox
        rcases hx with hx | hx
        · exact absurd (h.fsts p hp) (by omega)
        · exact d ((h.merged_iff _).2 ⟨p.1, by rw [← hx]; exact hp⟩)
  all := by
    intro i hi
    rw [named_append, List.mem_append]
    rcases Nat.lt_succ_iff_lt_or_eq.1 hi with hi | rfl
    · exact .inl (h.all i hi)
    · exact .inr (by simp)
  chosen := by
    intro i o' hio
    simp only [List.mem_append, List.mem_singleton, Prod.mk.injEq] at hio ⊢
    rcases hio with hio | ⟨rfl, rfl⟩
    · obtain ⟨mg, h1, h2⟩ := h.chosen i o' hio
      refine ⟨mg, fun j => ?_, h2⟩
      rw [h1]
      have := h.fsts _ hio
      constructor
      · rintro ⟨i', hi', he⟩
        exact ⟨i', hi', .inl he⟩
      · rintro ⟨i', hi', he | ⟨rfl, _⟩⟩
        · exact ⟨i', hi', he⟩
        · simp only at this; omega
    · refine ⟨st.merged, fun j => ?_, hch⟩
      rw [h.merged_iff]
      constructor
      · rintro ⟨i', he⟩
        exact ⟨i', h.fsts _ he, .inl he⟩
      · rintro ⟨i', hi', he | ⟨rfl, _⟩⟩
        · exact ⟨i', he⟩
        · omega

theorem mergeInv_step {n : Nat} {sim : Nat → Nat → K} {order : Nat → List Nat} {theta : K} {m : Nat}
    (hm : m < n) (ho : ∀ i < n, ∀ t ∈ order i, t < n) {st : MergeState}
    (h : MergeInv n sim order theta m st) :
    MergeInv n sim order theta (m + 1) (mergeStep sim order theta st m) := by
  unfold mergeStep
  by_cases hin : st.merged.contains m = true
  · rw [if_pos hin]
    have hin' : m ∈ st.merged := by simpa using hin
    refine ⟨fun p hp => Nat.lt_succ_of_lt (h.fsts p hp), h.merged_iff, h.lt, h.nodup, ?_, h.chosen⟩
    intro i hi
    rcases Nat.lt_succ_iff_lt_or_eq.1 hi with hi | rfl
    · exact h.all i hi
    · obtain ⟨i', hi'⟩ := (h.merged_iff _).1 hin'
      exact mem_named.2 ⟨_, hi', .inr rfl⟩
  · rw [if_neg hin]
    have hin' : m ∉ st.merged := by simpa using hin
    cases hf : findFree (order m) m st.merged with
    | none =>
      exact h.push hin' none st.merged (fun k hk => (nomatch hk)) (fun j => by simp) (.inl ⟨hf, rfl⟩)
    | some k =>
      obtain ⟨h1, h2, h3⟩ := findFree_some hf
      simp only
      by_cases ht : sim m k < theta
      · rw [if_pos ht]
        exact h.push hin' none st.merged (fun k hk => (nomatch hk)) (fun j => by simp)
          (.inr (.inl ⟨k, hf, ht, rfl⟩))
      · rw [if_neg ht]
        refine h.push hin' (some k) (k :: st.merged) ?_ ?_ (.inr (.inr ⟨k, hf, le_of_not_gt ht, rfl⟩))
        · intro k' hk'
          obtain rfl := Option.some.inj hk'
          exact ⟨h2, ho m hm _ (mem_of_candidates h1), le_of_not_gt ht, h3⟩
        · intro j
          simp only [List.mem_cons, Option.some.injEq]
          constructor
          · rintro (rfl | hj)
            · exact .inr rfl
            · exact .inl hj
          · rintro (hj | rfl)
            · exact .inr hj
            · exact .inl rfl

theorem mergeInv_all {n : Nat} {sim : Nat → Nat → K} {order : Nat → List Nat} {theta : K}
    (ho : ∀ i < n, ∀ t ∈ order i, t < n) : ∀ m ≤ n, MergeInv n sim order theta m
      ((List.range m).foldl (mergeStep sim order theta) ⟨[], []⟩) := by
  intro m
  induction m with
  | zero =>
    intro _
    refine ⟨?_, ?_, ?_, ?_, ?_, ?_⟩ <;> simp [named]
  | succ m ih =>
    intro hm
    rw [List.range_succ, List.foldl_append]
    exact mergeInv_step hm ho (ih (by omega))

theorem IsArgsort.lt {n : Nat} {sim : Nat → Nat → K} {order : Nat → List Nat}
    (h : IsArgsort n sim order) : ∀ i < n, ∀ t ∈ order i, t < n := by
  intro i hi t ht
  exact List.mem_range.1 ((h i hi).1.mem_iff.1 ht)

/-! ## What the search loop visits -/

theorem candidates_spec (l : List Nat) (a b : Nat) (mid : List Nat) (h : l = a :: (mid ++ [b])) :
    candidates l = mid.reverse := by
  subst h
  unfold candidates
  rw [List.reverse_cons, List.reverse_append]
  simp

/-- The first hit in the descending order has the largest similarity of all hits. -/
theorem find?_desc_max {l : List Nat} {f : Nat → K} (h : l.Pairwise (fun a b => f b ≤ f a))
    {p : Nat → Bool} {k : Nat} (hk : l.find? p = some k) : ∀ j ∈ l, p j = true → f j ≤ f k := by
  induction l with
  | nil => simp at hk
  | cons a l ih =>
    rw [List.pairwise_cons] at h
    rw [List.find?_cons] at hk
    intro j hj hpj
    cases hpa : p a with
    | true =>
      rw [hpa] at hk
      obtain rfl := Option.some.inj hk
      rcases List.mem_cons.1 hj with rfl | hj
      · exact le_refl _
      · exact h.1 j hj
    | false =>
      rw [hpa] at hk
      rcases List.mem_cons.1 hj with rfl | hj
      · rw [hpa] at hpj; exact absurd hpj (by simp)
      · exact ih h.2 hk j hj hpj

/-! ## C43 -/

/-- C43, the part that always holds: every committee index occurs exactly once in the result; a merged pair
`(i, j)` has `i < j` and reaches theta. -/
theorem C43_once (n : Nat) (sim : Nat → Nat → K) (order : Nat → List Nat) (theta : K)
    (ho : IsArgsort n sim order) :
    (named (getMerged n sim order theta)).Perm (List.range n) ∧
    ∀ i j, (i, some j) ∈ getMerged n sim order theta → i < j ∧ theta ≤ sim i j := by
  have h := mergeInv_all (sim := sim) (theta := theta) ho.lt n le_rfl
  refine ⟨?_, fun i j hij => ⟨(h.lt i j hij).1, (h.lt i j hij).2.2⟩⟩
  refine (List.perm_ext_iff_of_nodup h.nodup List.nodup_range).2 (fun x => ?_)
  rw [List.mem_range]
  constructor
  · intro hx
    obtain ⟨p, hp, hx⟩ := mem_named.1 hx
    rcases hx with rfl | hx
    · exact h.fsts p hp
    · exact (h.lt p.1 x (by rw [← hx]; exact hp)).2.1
  · exact h.all x

/-- Shape of a sorted row whose own index is strictly the most similar one. -/
theorem argsort_shape {n : Nat} {sim : Nat → Nat → K} {order : Nat → List Nat}
    (ho : IsArgsort n sim order) {i : Nat} (hi : i < n) (hn : 2 ≤ n)
    (hself : ∀ j < n, j ≠ i → sim i j < sim i i) :
    ∃ least mid, order i = least :: (mid ++ [i]) := by
  obtain ⟨hp, hs⟩ := ho i hi
  have hlen : (order i).length = n := by rw [hp.length_eq, List.length_range]
  rcases hx : order i with _ | ⟨a, rest⟩
  · rw [hx] at hlen; simp at hlen; omega
  · rcases List.eq_nil_or_concat rest with rfl | ⟨mid, b, rfl⟩
    · rw [hx] at hlen; simp at hlen; omega
    · refine ⟨a, mid, ?_⟩
      rw [hx] at hs hp
      have hbi : b = i := by
        by_contra hne
        have hb : b < n := List.mem_range.1 (hp.mem_iff.1 (by simp))
        have hlt := hself b hb hne
        have him : i ∈ a :: (mid ++ [b]) := by
          rw [List.concat_eq_append] at hp
          exact hp.mem_iff.2 (List.mem_range.2 hi)
        rw [List.concat_eq_append] at hs
        have hle : sim i i ≤ sim i b := by
          have : (a :: mid ++ [b]).Pairwise (fun x y => sim i x ≤ sim i y) := by simpa using hs
          rw [List.pairwise_append] at this
          have hmem : i ∈ a :: mid := by
            have : i ∈ a :: mid ++ [b] := by simpa using him
            rcases List.mem_append.1 this with h | h
            · exact h
            · exact absurd (List.mem_singleton.1 h).symm hne
          exact this.2.2 i hmem b (by simp)
        exact absurd hlt (not_lt.2 hle)
      subst hbi
      simp

/-- C43, partial.  Missing: the full claim has no exception for the least similar committee, and needs no
assumption that a committee is strictly most similar to itself.  With that assumption for row `i`:
* if `i` is merged with `k`, then `k` is a most similar one among all committees still free;
* if `i` stays alone, then every committee still free is either below theta or is the least similar committee
  of the whole row (the first of the sorted row, which the loop never visits); and if two or more are free,
  they are all below theta. -/
theorem C43_partial (n : Nat) (sim : Nat → Nat → K) (order : Nat → List Nat) (theta : K)
    (ho : IsArgsort n sim order) (i : Nat) (hi : i < n)
    (hself : ∀ j < n, j ≠ i → sim i j < sim i i) :
    (∀ k, (i, some k) ∈ getMerged n sim order theta →
      FreeAt n (getMerged n sim order theta) i k ∧
      ∀ j, FreeAt n (getMerged n sim order theta) i j → sim i j ≤ sim i k) ∧
    ((i, none) ∈ getMerged n sim order theta →
      (∀ j, FreeAt n (getMerged n sim order theta) i j →
        sim i j < theta ∨ ∀ k < n, sim i j ≤ sim i k) ∧
      (∀ j j', j ≠ j' → FreeAt n (getMerged n sim order theta) i j →
        FreeAt n (getMerged n sim order theta) i j' → sim i j < theta)) := by
  have h := mergeInv_all (sim := sim) (theta := theta) ho.lt n le_rfl
  change MergeInv n sim order theta n _ at h
  have hres : ((List.range n).foldl (mergeStep sim order theta) ⟨[], []⟩).mergecomms
      = getMerged n sim order theta := rfl
  have hchosen := h.chosen
  have hltAll := h.lt
  rw [hres] at hchosen hltAll
  by_cases hn : n < 2
  · -- only one committee: nothing is free
    have hno : ∀ j, ¬ FreeAt n (getMerged n sim order theta) i j := by
      intro j hj
      have := hj.1
      have := hj.2.1
      omega
    refine ⟨?_, ?_⟩
    · intro k hk
      have := hltAll i k hk
      omega
    · intro _
      exact ⟨fun j hj => absurd hj (hno j), fun j j' _ hj => absurd hj (hno j)⟩
  obtain ⟨least, mid, hshape⟩ := argsort_shape ho hi (by omega) hself
  have hcand := candidates_spec (order i) least i mid hshape
  obtain ⟨hp, hs⟩ := ho i hi
  rw [hshape] at hs hp
  rw [List.pairwise_cons] at hs
  have hmidsort : mid.reverse.Pairwise (fun a b => sim i b ≤ sim i a) := by
    rw [List.pairwise_reverse]
    exact (List.pairwise_append.1 hs.2).1
  have hleast : ∀ k < n, sim i least ≤ sim i k := by
    intro k hk
    have : k ∈ least :: (mid ++ [i]) := hp.mem_iff.2 (List.mem_range.2 hk)
    rcases List.mem_cons.1 this with rfl | hm
    · exact le_refl _
    · exact hs.1 k hm
  have hmem : ∀ j, i < j → j < n → j = least ∨ j ∈ mid := by
    intro j hij hj
    have : j ∈ least :: (mid ++ [i]) := hp.mem_iff.2 (List.mem_range.2 hj)
    simp only [List.mem_cons, List.mem_append, List.not_mem_nil, or_false] at this
    rcases this with h1 | h1 | h1
    · exact .inl h1
    · exact .inr h1
    · omega
  have hmidlt : ∀ j ∈ mid, j < n := fun j hj =>
    List.mem_range.1 (hp.mem_iff.1 (by simp [hj]))
  refine ⟨?_, ?_⟩
  · intro k hk
    obtain ⟨mg, hmg, hc⟩ := hchosen i (some k) hk
    rcases hc with ⟨_, e⟩ | ⟨_, _, _, e⟩ | ⟨k', hf, _, e⟩
    · exact (nomatch e)
    · exact (nomatch e)
    · obtain rfl := Option.some.inj e
      obtain ⟨h1, h2, h3⟩ := findFree_some hf
      refine ⟨⟨h2, (hltAll i k hk).2.1, fun i' hi' hm => h3 ((hmg k).2 ⟨i', hi', hm⟩)⟩, ?_⟩
      intro j hj
      obtain ⟨hij, hjn, hfree⟩ := hj
      rcases hmem j hij hjn with rfl | hjm
      · exact hleast k (hltAll i k hk).2.1
      · unfold findFree at hf
        rw [hcand] at hf
        refine find?_desc_max hmidsort hf j (by simpa using hjm) ?_
        simp only [Bool.and_eq_true, decide_eq_true_eq, Bool.not_eq_true', List.contains_eq_mem,
          decide_eq_false_iff_not]
        exact ⟨hij, fun hm => by
          obtain ⟨i', hi', he⟩ := (hmg j).1 hm
          exact hfree i' hi' he⟩
  · intro hk
    obtain ⟨mg, hmg, hc⟩ := hchosen i none hk
    have hmid : ∀ j ∈ mid, FreeAt n (getMerged n sim order theta) i j → sim i j < theta := by
      intro j hjm hj
      obtain ⟨hij, hjn, hfree⟩ := hj
      have hnm : j ∉ mg := fun hm => by
        obtain ⟨i', hi', he⟩ := (hmg j).1 hm
        exact hfree i' hi' he
      rcases hc with ⟨hf, _⟩ | ⟨k, hf, hlt, _⟩ | ⟨_, _, _, e⟩
      · exact absurd (findFree_none hf j (by rw [hcand]; simpa using hjm) hij) hnm
      · unfold findFree at hf
        rw [hcand] at hf
        refine lt_of_le_of_lt (find?_desc_max hmidsort hf j (by simpa using hjm) ?_) hlt
        simp only [Bool.and_eq_true, decide_eq_true_eq, Bool.not_eq_true', List.contains_eq_mem,
          decide_eq_false_iff_not]
        exact ⟨hij, hnm⟩
      · exact (nomatch e)
    have hfirst : ∀ j, FreeAt n (getMerged n sim order theta) i j →
        sim i j < theta ∨ ∀ k < n, sim i j ≤ sim i k := by
      intro j hj
      rcases hmem j hj.1 hj.2.1 with rfl | hjm
      · exact .inr hleast
      · exact .inl (hmid j hjm hj)
    refine ⟨hfirst, ?_⟩
    intro j j' hne hj hj'
    rcases hmem j hj.1 hj.2.1 with rfl | hjm
    · rcases hmem j' hj'.1 hj'.2.1 with rfl | hjm'
      · exact absurd rfl hne
      · exact lt_of_le_of_lt (hleast j' hj'.2.1) (hmid j' hjm' hj')
    · exact hmid j hjm hj

/-- C43 is false: of exactly two committees nothing is ever merged, however similar they are. -/
theorem C43_false_two (sim : Nat → Nat → K) (order : Nat → List Nat) (theta : K)
    (ho : IsArgsort 2 sim order) : getMerged 2 sim order theta = [(0, none), (1, none)] := by
  have hc : ∀ i < 2, candidates (order i) = [] := by
    intro i hi
    have hl : (order i).length = 2 := by rw [(ho i hi).1.length_eq, List.length_range]
    rcases hx : order i with _ | ⟨a, _ | ⟨b, _ | ⟨c, l⟩⟩⟩
    · rw [hx] at hl; simp at hl
    · rw [hx] at hl; simp at hl
    · rfl
    · rw [hx] at hl; simp at hl
  have h0 : findFree (order 0) 0 [] = none := by simp [findFree, hc 0 (by decide)]
  have h1 : findFree (order 1) 1 [] = none := by simp [findFree, hc 1 (by decide)]
  unfold getMerged
  simp [List.range_succ, mergeStep, h0, h1]

/-- C43 is false for three committees too: 0 and 1 are each other's most similar committee (8, theta 5), but a
tie between 0's similarity to itself and to 1 makes the sorted row end with 1, which the loop skips. -/
theorem C43_false_tie :
    ∃ (sim : Nat → Nat → Int) (order : Nat → List Nat), IsArgsort 3 sim order ∧
      (∀ i j, sim i j = sim j i) ∧ sim 0 1 = 8 ∧ (∀ k, k ≠ 0 → sim 0 k ≤ sim 0 1) ∧
      getMerged 3 sim order 5 = [(0, none), (1, none), (2, none)] := by
  refine ⟨fun i j => if i + j ≤ 1 then 8 else if i = j then 8 else 1,
    fun i => if i = 0 then [2, 0, 1] else if i = 1 then [2, 0, 1] else [0, 1, 2], ?_, ?_, ?_, ?_, ?_⟩
  · intro i hi
    match i, hi with
    | 0, _ => exact ⟨by decide, by decide⟩
    | 1, _ => exact ⟨by decide, by decide⟩
    | 2, _ => exact ⟨by decide, by decide⟩
  · intro i j
    simp only [Nat.add_comm i j, eq_comm (a := i) (b := j)]
  · decide
  · intro k hk
    simp only [Nat.zero_add]
    split_ifs <;> omega
  · decide

/-- A case where merging does take place: 0 with 2 (similarity 7), 1 with 3 (similarity 6). -/
def exSim (i j : Nat) : Int :=
  if i = j then 10 else if (i, j) = (0, 2) ∨ (i, j) = (2, 0) then 7
  else if (i, j) = (1, 3) ∨ (i, j) = (3, 1) then 6 else if i = 0 ∨ j = 0 then 2 else 3

def exOrder : Nat → List Nat
  | 0 => [1, 3, 2, 0]
  | 1 => [0, 2, 3, 1]
  | 2 => [1, 3, 0, 2]
  | _ => [0, 2, 1, 3]

theorem exArgsort : IsArgsort 4 exSim exOrder := by
  intro i hi
  match i, hi with
  | 0, _ => exact ⟨by decide, by decide⟩
  | 1, _ => exact ⟨by decide, by decide⟩
  | 2, _ => exact ⟨by decide, by decide⟩
  | 3, _ => exact ⟨by decide, by decide⟩

example : getMerged 4 exSim exOrder 5 = [(0, some 2), (1, some 3)] ∧
    (named (getMerged 4 exSim exOrder 5)).Perm (List.range 4) ∧
    (∀ j < 4, j ≠ 0 → exSim 0 j < exSim 0 0) :=
  ⟨by decide, (C43_once 4 exSim exOrder 5 exArgsort).1, by decide⟩

end Verif.Cbc
