import Verif.Dep.MatchLemmas

set_option linter.unusedSectionVars false

/-!
# C37, C38: pattern matching finds all embeddings, each once; target filters
-/

namespace Verif.Dep
open Verif.Py

/-! ## Specification -/

/-- All conditions of `pat` hold for the attributes `item`. -/
def Satisfies (rx : String → String → Bool) (pat item : Attrs) : Prop :=
  ∀ a re, (a, re) ∈ pat → ∃ v, item.get? a = some v ∧ rx re v = true

/-- Specification of a match: a map from the pattern nodes to sentence nodes which satisfies all node conditions, sends
edges to edges and satisfies all edge conditions, and gives the dependents of one pattern node different words. -/
structure Fits (rx : String → String → Bool) (s p : Graph) (φ : Nat → Option Nat) : Prop where
  dom : ∀ x, (φ x).isSome ↔ x ∈ p.nodes.keys
  node : ∀ x y pat, φ x = some y → p.nodes.get? x = some pat → ∃ item, s.nodes.get? y = some item ∧ Satisfies rx pat item
  edge : ∀ x x' y y' pat, p.edges.get? (x, x') = some pat → φ x = some y → φ x' = some y' →
    ∃ item, s.edges.get? (y, y') = some item ∧ Satisfies rx pat item
  siblings : ∀ x y z b, HasEdge p x y → HasEdge p x z → φ y = some b → φ z = some b → y = z

/-! ## Proofs -/

section
variable {rx : String → String → Bool} {s p : Graph}

theorem attrB_iff {pat item : Attrs} : attrB rx pat item = true ↔ Satisfies rx pat item := by
  unfold attrB Satisfies
  rw [List.all_eq_true]
  constructor
  · intro h a re hm
    have := h (a, re) hm
    simp only at this
    cases hg : Dict.get? item a with
    | none => rw [hg] at this; cases this
    | some v => rw [hg] at this; exact ⟨v, rfl, this⟩
  · rintro h ⟨a, re⟩ hm
    obtain ⟨v, hv, hr⟩ := h a re hm
    simp only [hv, hr]

theorem nodeB_iff {x y : Nat} {pat : Attrs} (hp : p.nodes.get? x = some pat) :
    nodeB rx s p x y = true ↔ ∃ item, s.nodes.get? y = some item ∧ Satisfies rx pat item := by
  unfold nodeB
  rw [hp]
  cases hs : Dict.get? s.nodes y with
  | none => simp
  | some item => simp [attrB_iff]

theorem edgeB_iff {e f : Nat × Nat} {pat : Attrs} (hp : p.edges.get? e = some pat) :
    edgeB rx s p e f = true ↔ ∃ item, s.edges.get? f = some item ∧ Satisfies rx pat item := by
  unfold edgeB
  rw [hp]
  cases hs : Dict.get? s.edges f with
  | none => simp
  | some item => simp [attrB_iff]

variable (R : Ready s p)
include R

theorem matchFrom_eq {r d : Nat} (T : RootedTree p r) (hd : 1 ≤ d) {v : Nat} {item : Attrs} (hv : (v, item) ∈ s.nodes) :
    matchFrom rx s p d r (v, item) =
      .ok (if nodeB rx s p r v then (rounds rx s p r v (d - 1)).map mergeLevels else []) := by
  unfold matchFrom
  rw [matchNode_eq R T.root (Dict.get?_of_mem R.nodesWF hv)]
  simp only [bind, Except.bind]
  split
  · next h =>
    have := subtree_eq (rx := rx) R T v d (d + 1) 0 hd (by omega)
    rw [rounds] at this
    rw [this]
  · rfl

theorem treeMaps_eq {r d : Nat} (T : RootedTree p r) (h1 : 1 ∈ p.nodes.keys) (hd : 1 ≤ d) :
    treeMaps rx s p d = .ok (s.nodes.flatMap (fun e => if nodeB rx s p r e.1 then (rounds rx s p r e.1 (d - 1)).map mergeLevels else [])) := by
  unfold treeMaps
  rw [C41_root T h1]
  simp only [bind, Except.bind]
  rw [mapM_ok _ (fun e => if nodeB rx s p r e.1 then (rounds rx s p r e.1 (d - 1)).map mergeLevels else [])]
  · simp only [List.flatMap_def]
  · rintro ⟨v, item⟩ he
    exact matchFrom_eq R T hd he

/-- The nodes of the pattern, level by level. -/
theorem mem_upTo {r d : Nat} (T : RootedTree p r) (hd : ∀ i v, v ∈ levels p r i → i + 1 ≤ d) {x : Nat} :
    x ∈ (List.range d).flatMap (levels p r) ↔ x ∈ p.nodes.keys := by
  rw [List.mem_flatMap]
  constructor
  · rintro ⟨i, _, hx⟩; exact T.levels_sub i hx
  · intro hx
    obtain ⟨i, hi⟩ := T.levels_cover hx
    exact ⟨i, List.mem_range.2 (by have := hd i x hi; omega), hi⟩

omit R in
/-- The match of a function. -/
theorem merged_get? {r d : Nat} (R : Ready s p) (T : RootedTree p r) (hd : ∀ i v, v ∈ levels p r i → i + 1 ≤ d) (φ : Nat → Nat) (x : Nat) :
    Dict.get? (mergeLevels (levelsOf p r φ d)) x = if x ∈ p.nodes.keys then some (φ x) else none := by
  rw [mergeLevels_eq R T, get?_graph]
  exact if_congr (mem_upTo R T hd) rfl rfl

/-- Being a good map is fitting. -/
theorem good_iff {r d : Nat} (T : RootedTree p r) (hd1 : 1 ≤ d) (hd : ∀ i v, v ∈ levels p r i → i + 1 ≤ d) (φ : Nat → Nat) (v : Nat)
    (hv : φ r = v) :
    (nodeB rx s p r v = true ∧ GoodUpTo rx s p r v φ (d - 1)) ↔
      Fits rx s p (fun x => if x ∈ p.nodes.keys then some (φ x) else none) := by
  have hlt : ∀ x y, HasEdge p x y → ∃ i < d - 1, x ∈ levels p r i := by
    intro x y hxy
    obtain ⟨i, hi⟩ := T.levels_cover (T.ends _ _ hxy).1
    have := hd (i + 1) y (mem_levels_succ.2 ⟨x, hi, hxy⟩)
    exact ⟨i, by omega, hi⟩
  constructor
  · rintro ⟨hroot, _, hgood⟩
    have hg : ∀ x y, HasEdge p x y → GoodAt rx s p x (φ x) φ := by
      intro x y hxy
      obtain ⟨i, hi, hx⟩ := hlt x y hxy
      exact hgood i hi x hx
    refine ⟨fun x => ?_, ?_, ?_, ?_⟩
    · by_cases hx : x ∈ p.nodes.keys <;> simp [hx]
    · intro x y pat hx hp
      have hxk : x ∈ p.nodes.keys := (Dict.get?_isSome_iff p.nodes x).1 (by rw [hp]; rfl)
      simp only [if_pos hxk, Option.some.injEq] at hx
      subst hx
      refine (nodeB_iff hp).1 ?_
      obtain ⟨i, hi⟩ := T.levels_cover hxk
      cases i with
      | zero => rw [List.mem_singleton.1 hi, hv]; exact hroot
      | succ i =>
        obtain ⟨u, _, hu⟩ := mem_levels_succ.1 hi
        have := ((hg u x hu).1 x hu).2
        unfold childB at this
        exact (Bool.and_eq_true _ _ ▸ this).1
    · intro x x' y y' pat hp hx hx'
      have hxy : HasEdge p x x' := (Dict.get?_isSome_iff p.edges (x, x')).1 (by rw [hp]; rfl)
      simp only [if_pos (T.ends _ _ hxy).1, Option.some.injEq] at hx
      simp only [if_pos (T.ends _ _ hxy).2, Option.some.injEq] at hx'
      subst hx; subst hx'
      refine (edgeB_iff hp).1 ?_
      have := ((hg x x' hxy).1 x' hxy).2
      unfold childB at this
      exact (Bool.and_eq_true _ _ ▸ this).2
    · intro x y z b hy hz hyb hzb
      simp only [if_pos (T.ends _ _ hy).2, Option.some.injEq] at hyb
      simp only [if_pos (T.ends _ _ hz).2, Option.some.injEq] at hzb
      have := (hg x y hy).2
      exact List.inj_on_of_nodup_map this (mem_succ.2 hy) (mem_succ.2 hz) (hyb.trans hzb.symm)
  · intro F
    refine ⟨?_, hv, ?_⟩
    · obtain ⟨pat, hp⟩ := Option.isSome_iff_exists.1 ((Dict.get?_isSome_iff p.nodes r).2 T.root)
      exact (nodeB_iff hp).2 (F.node r v pat (by simp only [if_pos T.root, hv]) hp)
    · intro i _ x hx
      have hxk := T.levels_sub i hx
      refine ⟨fun y hy => ?_, ?_⟩
      · have hyk := (T.ends _ _ hy).2
        obtain ⟨pe, hpe⟩ := Option.isSome_iff_exists.1 ((Dict.get?_isSome_iff p.edges (x, y)).2 hy)
        obtain ⟨pn, hpn⟩ := Option.isSome_iff_exists.1 ((Dict.get?_isSome_iff p.nodes y).2 hyk)
        have hn := F.node y (φ y) pn (by simp only [if_pos hyk]) hpn
        have he := F.edge x y (φ x) (φ y) pe hpe (by simp only [if_pos hxk]) (by simp only [if_pos hyk])
        refine ⟨?_, ?_⟩
        · obtain ⟨item, hi, _⟩ := he
          exact (Dict.get?_isSome_iff s.edges (φ x, φ y)).1 (by rw [hi]; rfl)
        · unfold childB
          rw [Bool.and_eq_true]
          exact ⟨(nodeB_iff hpn).2 hn, (edgeB_iff hpe).2 he⟩
      · refine List.Nodup.map_on ?_ (succ_nodup T.edgesWF x)
        intro y hy z hz hyz
        have hy' := mem_succ.1 hy
        have hz' := mem_succ.1 hz
        exact F.siblings x y z (φ y) hy' hz' (by simp only [if_pos (T.ends _ _ hy').2])
          (by simp only [if_pos (T.ends _ _ hz').2, hyz])

/-- **C37** (under the conditions of `Ready`): the maps found are exactly the matches, each once.  Missing for the full
claim: patterns with a node or an edge without conditions, see `C37_false_unconstrained`. -/
theorem C37_partial {r d : Nat} (T : RootedTree p r) (h1 : 1 ∈ p.nodes.keys) (hdep : getDepth p = .ok d) :
    ∃ maps, treeMaps rx s p d = .ok maps ∧ (maps.map Dict.get?).Nodup ∧ ∀ φ, φ ∈ maps.map Dict.get? ↔ Fits rx s p φ := by
  obtain ⟨d', hd', ⟨v0, i0, _, hv0, hdi⟩, hd⟩ := getDepth_levels T
  rw [hdep] at hd'
  cases hd'
  have hd1 : 1 ≤ d := by omega
  have hdd : d - 1 + 1 = d := by omega
  have hround : ∀ v lm, lm ∈ rounds rx s p r v (d - 1) ↔ ∃ φ, lm = levelsOf p r φ d ∧ GoodUpTo rx s p r v φ (d - 1) := by
    intro v lm
    have := mem_rounds (rx := rx) R T v (d - 1) lm
    rwa [hdd] at this
  refine ⟨_, treeMaps_eq R T h1 hd1, ?_, ?_⟩
  · rw [List.map_flatMap, List.nodup_flatMap]
    constructor
    · intro e _
      split
      · rw [List.map_map]
        refine List.Nodup.map_on ?_ (rounds_nodup R T e.1 (d - 1))
        intro a ha b hb hab
        obtain ⟨φ, rfl, _⟩ := (hround _ _).1 ha
        obtain ⟨ψ, rfl, _⟩ := (hround _ _).1 hb
        unfold levelsOf
        refine List.map_congr_left ?_
        intro i _
        refine List.map_congr_left ?_
        intro x hx
        have := congrFun hab x
        simp only [Function.comp_def] at this
        rw [merged_get? R T hd, merged_get? R T hd, if_pos (T.levels_sub i hx), if_pos (T.levels_sub i hx)] at this
        rw [Option.some.inj this]
      · exact List.nodup_nil
    · have hk : (s.nodes.map Prod.fst).Nodup := R.nodesWF
      have hp := (List.pairwise_map.1 hk)
      refine hp.imp ?_
      intro e f hef φ hφ hφ'
      have root_of : ∀ e : Nat × Attrs, φ ∈ (if nodeB rx s p r e.1 then (rounds rx s p r e.1 (d - 1)).map mergeLevels else []).map Dict.get? →
          φ r = some e.1 := by
        intro e h
        split at h
        · obtain ⟨m, hm, rfl⟩ := List.mem_map.1 h
          obtain ⟨lm, hlm, rfl⟩ := List.mem_map.1 hm
          obtain ⟨θ, rfl, hθ, _⟩ := (hround _ _).1 hlm
          rw [merged_get? R T hd, if_pos T.root, hθ]
        · cases h
      have h1 := root_of e hφ
      have h2 := root_of f hφ'
      rw [h1] at h2
      exact hef (Option.some.inj h2)
  · intro φ
    constructor
    · intro h
      obtain ⟨m, hm, rfl⟩ := List.mem_map.1 h
      obtain ⟨e, _, hm⟩ := List.mem_flatMap.1 hm
      split at hm
      · next hn =>
        obtain ⟨lm, hlm, rfl⟩ := List.mem_map.1 hm
        obtain ⟨θ, rfl, hθ⟩ := (hround _ _).1 hlm
        have := (good_iff R T hd1 hd θ e.1 hθ.1).1 ⟨hn, hθ⟩
        have he : Dict.get? (mergeLevels (levelsOf p r θ d)) = fun x => if x ∈ p.nodes.keys then some (θ x) else none :=
          funext (fun x => merged_get? R T hd θ x)
        rw [he]
        exact this
      · cases hm
    · intro F
      have hφ : φ = fun x => if x ∈ p.nodes.keys then some ((fun x => (φ x).getD 0) x) else none := by
        funext x
        by_cases hx : x ∈ p.nodes.keys
        · rw [if_pos hx]
          have := (F.dom x).2 hx
          obtain ⟨y, hy⟩ := Option.isSome_iff_exists.1 this
          simp only [hy, Option.getD_some]
        · rw [if_neg hx]
          have := mt (F.dom x).1 hx
          simpa using this
      rw [hφ] at F
      obtain ⟨hn, hgood⟩ := (good_iff R T hd1 hd (fun x => (φ x).getD 0) ((φ r).getD 0) rfl).2 F
      have hv : ∃ item, ((φ r).getD 0, item) ∈ s.nodes := by
        obtain ⟨pat, hp⟩ := Option.isSome_iff_exists.1 ((Dict.get?_isSome_iff p.nodes r).2 T.root)
        obtain ⟨item, hi, _⟩ := (nodeB_iff hp).1 hn
        exact ⟨item, Dict.mem_of_get? hi⟩
      obtain ⟨item, hitem⟩ := hv
      refine List.mem_map.2 ⟨mergeLevels (levelsOf p r (fun x => (φ x).getD 0) d), List.mem_flatMap.2 ⟨((φ r).getD 0, item), hitem, ?_⟩, ?_⟩
      · rw [if_pos hn]
        exact List.mem_map.2 ⟨_, (hround _ _).2 ⟨_, rfl, hgood⟩, rfl⟩
      · rw [hφ]
        funext x
        rw [← hφ]
        exact merged_get? R T hd _ x

end

/-! ### A sentence and a pattern -/

theorem Ready.of_mem {s p : Graph} (h1 : (s.nodes.map (fun e => e.1)).Nodup) (h2 : (s.edges.map (fun e => e.1)).Nodup)
    (h3 : ∀ e ∈ s.edges, e.1.1 ∈ s.nodes.map (fun e => e.1) ∧ e.1.2 ∈ s.nodes.map (fun e => e.1))
    (h4 : ∀ e ∈ p.nodes, ∀ f ∈ s.nodes, f.2 ≠ [] → ∀ a ∈ e.2, a.1 ∈ f.2.map (fun e => e.1))
    (h5 : ∀ e ∈ p.edges, ∀ f ∈ s.edges, ∀ a ∈ e.2, a.1 ∈ f.2.map (fun e => e.1))
    (h6 : ∀ e ∈ p.nodes, e.2 ≠ []) (h7 : ∀ e ∈ p.edges, e.2 ≠ [])
    (h8 : ∀ e ∈ p.nodes, ∀ a ∈ e.2.map (fun e => e.1), a ≠ "lid" ∧ a ≠ "FID" ∧ a ≠ "fid") : Ready s p := by
  refine ⟨h1, h2, ?_, ?_, ?_, ?_, ?_, fun x pat hp => h8 _ (Dict.mem_of_get? hp)⟩
  · intro u v h
    obtain ⟨e, he, heq⟩ := List.mem_map.1 h
    have := h3 e he
    rw [heq] at this
    exact this
  · intro x pat y item hp hs hne a ha
    obtain ⟨c, hc, rfl⟩ := List.mem_map.1 ha
    exact h4 _ (Dict.mem_of_get? hp) _ (Dict.mem_of_get? hs) hne c hc
  · intro x pat y item hp hs a ha
    obtain ⟨c, hc, rfl⟩ := List.mem_map.1 ha
    exact h5 _ (Dict.mem_of_get? hp) _ (Dict.mem_of_get? hs) c hc
  · intro x pat hp; exact h6 _ (Dict.mem_of_get? hp)
  · intro x pat hp; exact h7 _ (Dict.mem_of_get? hp)

/-- Regular expressions of the samples: `.*`, or a literal string. -/
def rx0 (re v : String) : Bool := re == ".*" || re == v

/-- "boy eats apple", with the artificial root. -/
def eats : Graph :=
  ⟨[(1, [("LEMMA", "boy"), ("POS", "N")]), (2, [("LEMMA", "eat"), ("POS", "V")]), (3, [("LEMMA", "apple"), ("POS", "N")]), (0, [])],
   [((2, 1), [("DEPREL", "nsubj")]), ((0, 2), [("DEPREL", "root")]), ((2, 3), [("DEPREL", "obj")])]⟩

/-- A verb with two nouns. -/
def verbPat : Graph :=
  ⟨[(1, [("LEMMA", ".*"), ("POS", "V")]), (2, [("LEMMA", ".*"), ("POS", "N")]), (3, [("LEMMA", ".*"), ("POS", "N")])],
   [((1, 2), [("DEPREL", ".*")]), ((1, 3), [("DEPREL", ".*")])]⟩

theorem verbPat_edge {u v : Nat} : HasEdge verbPat u v ↔ (u, v) = (1, 2) ∨ (u, v) = (1, 3) := by
  unfold HasEdge
  have : verbPat.edges.keys = [(1, 2), (1, 3)] := rfl
  rw [this]
  simp

theorem verbPat_rooted : RootedTree verbPat 1 := by
  have hn : verbPat.nodes.keys = [1, 2, 3] := rfl
  refine ⟨by unfold Dict.WF; decide, by unfold Dict.WF; decide, ?_, by decide, ?_, ?_, ?_⟩
  · intro u v h
    rw [verbPat_edge] at h
    rw [hn]
    rcases h with h | h <;> cases h <;> decide
  · intro u h
    rw [verbPat_edge] at h
    rcases h with h | h <;> cases h
  · intro u u' v h h'
    rw [verbPat_edge] at h h'
    rcases h with h | h <;> cases h <;> rcases h' with h' | h' <;> cases h' <;> rfl
  · intro v hv
    rw [hn] at hv
    simp only [List.mem_cons, List.not_mem_nil, or_false] at hv
    rcases hv with rfl | rfl | rfl
    · exact .refl
    · exact .single (verbPat_edge.2 (by simp))
    · exact .single (verbPat_edge.2 (by simp))

theorem eats_ready : Ready eats verbPat := Ready.of_mem (by decide) (by decide) (by decide) (by decide) (by decide) (by decide) (by decide) (by decide)

/-- The two nouns of the sentence fit in two ways. -/
example : ∃ maps, treeMaps rx0 eats verbPat 2 = .ok maps ∧ (maps.map Dict.get?).Nodup ∧
    (∀ φ, φ ∈ maps.map Dict.get? ↔ Fits rx0 eats verbPat φ) ∧ maps.length = 2 := by
  obtain ⟨maps, h1, h2, h3⟩ := C37_partial (rx := rx0) eats_ready verbPat_rooted (by decide) (d := 2) (by decide)
  refine ⟨maps, h1, h2, h3, ?_⟩
  have : treeMaps rx0 eats verbPat 2 = .ok [[(1, 2), (2, 1), (3, 3)], [(1, 2), (2, 3), (3, 1)]] := by decide
  rw [this] at h1
  cases h1
  rfl

/-- The same pattern without conditions on its nouns. -/
def freePat : Graph := ⟨[(1, [("POS", "V")]), (2, [])], [((1, 2), [("DEPREL", "nsubj")])]⟩

/-- **C37** is false for patterns with a node without conditions: such a node fits every word, but matches none. -/
theorem C37_false_unconstrained : (∃ φ, Fits rx0 eats freePat φ) ∧ treeMaps rx0 eats freePat 2 = .ok [] := by
  refine ⟨⟨Dict.get? [(1, 2), (2, 1)], ⟨?_, ?_, ?_, ?_⟩⟩, by decide⟩
  · intro x
    rw [Dict.get?_isSome_iff]
    exact Iff.rfl
  · intro x y pat hx hp
    have hm := Dict.mem_of_get? hp
    simp only [freePat, List.mem_cons, List.not_mem_nil, or_false, Prod.mk.injEq] at hm
    rcases hm with ⟨rfl, rfl⟩ | ⟨rfl, rfl⟩
    · have : y = 2 := by simpa [Dict.get?_cons] using hx.symm
      subst this
      refine ⟨[("LEMMA", "eat"), ("POS", "V")], by decide, ?_⟩
      intro a re h
      simp only [List.mem_cons, List.not_mem_nil, or_false, Prod.mk.injEq] at h
      obtain ⟨rfl, rfl⟩ := h
      exact ⟨"V", by decide, by decide⟩
    · have : y = 1 := by simpa [Dict.get?_cons] using hx.symm
      subst this
      refine ⟨[("LEMMA", "boy"), ("POS", "N")], by decide, ?_⟩
      intro a re h
      cases h
  · intro x x' y y' pat hp hx hx'
    have hm := Dict.mem_of_get? hp
    simp only [freePat, List.mem_cons, List.not_mem_nil, or_false, Prod.mk.injEq] at hm
    obtain ⟨⟨rfl, rfl⟩, rfl⟩ := hm
    have h1 : y = 2 := by simpa [Dict.get?_cons] using hx.symm
    have h2 : y' = 1 := by simpa [Dict.get?_cons] using hx'.symm
    subst h1; subst h2
    refine ⟨[("DEPREL", "nsubj")], by decide, ?_⟩
    intro a re h
    simp only [List.mem_cons, List.not_mem_nil, or_false, Prod.mk.injEq] at h
    obtain ⟨rfl, rfl⟩ := h
    exact ⟨"nsubj", by decide, by decide⟩
  · intro x y z b hy hz _ _
    have e : freePat.edges.keys = [(1, 2)] := rfl
    unfold HasEdge at hy hz
    rw [e, List.mem_singleton] at hy hz
    cases hy; cases hz
    rfl

/-- **C37** is false for conditions on line numbers: line numbers are no strings, so that matching any sentence raises `TypeError` if
the root of the pattern begins with such a condition (words have line numbers, the root of the sentence has no attributes). -/
theorem C37_false_line (rx : String → String → Bool) {s p : Graph} {r d : Nat} {re : String} {rest : Attrs} (hr : getRoot p = .ok r)
    (hp : p.nodes.get? r = some (("lid", re) :: rest)) (hs : ∀ e ∈ s.nodes, e.2 ≠ [] → (Dict.get? e.2 "lid").isSome = true)
    (hw : ∃ e ∈ s.nodes, e.2 ≠ []) : treeMaps rx s p d = .error .typeError := by
  have hone : ∀ e ∈ s.nodes, matchFrom rx s p d r e = if e.2 = [] then .ok [] else .error .typeError := by
    intro e he
    unfold matchFrom matchNode
    by_cases hn : e.2 = []
    · rw [if_pos hn, if_pos hn]; rfl
    · obtain ⟨v, hv⟩ := Option.isSome_iff_exists.1 (hs e he hn)
      rw [if_neg hn, if_neg hn, hp]
      simp only [matchNodeAttrs, matchNodeLoop, hv, if_true]
      rfl
  have hmap : ∀ l : List (Nat × Attrs), (∀ e ∈ l, matchFrom rx s p d r e = if e.2 = [] then .ok [] else .error .typeError) →
      (∃ e ∈ l, e.2 ≠ []) → l.mapM (matchFrom rx s p d r) = .error .typeError := by
    intro l hl hex
    induction l with
    | nil => obtain ⟨e, h, _⟩ := hex; cases h
    | cons a l ih =>
      rw [List.mapM_cons, hl a (List.mem_cons_self ..)]
      by_cases ha : a.2 = []
      · rw [if_pos ha, ih (fun e h => hl e (List.mem_cons_of_mem _ h)) (by
          obtain ⟨e, h, hne⟩ := hex
          rcases List.mem_cons.1 h with rfl | h
          · exact absurd ha hne
          · exact ⟨e, h, hne⟩)]
        rfl
      · rw [if_neg ha]; rfl
  unfold treeMaps
  rw [hr]
  show (s.nodes.mapM (matchFrom rx s p d r) >>= _) = _
  rw [hmap s.nodes hone hw]
  rfl

/-- A word and a pattern on its line number. -/
example : treeMaps rx0 ⟨[(1, [("LEMMA", "boy"), ("lid", "7")]), (0, [])], [((0, 1), [("DEPREL", "ROOT")])]⟩ ⟨[(1, [("lid", ".*")])], []⟩ 1 = .error .typeError :=
  C37_false_line rx0 (r := 1) (by decide) rfl (by decide) ⟨_, List.mem_cons_self .., by decide⟩

end Verif.Dep
