import Verif.Dep.PropsFeature

set_option linter.unusedSectionVars false

/-!
# C37, C38: what is recorded for each match, target filters
-/

namespace Verif.Dep
open Verif.Py

/-! ## Specification -/

/-- The record of a map: the attributes of the words and of the edges between them; in token mode the words also carry
the name of the file. -/
structure Records (s p : Graph) (fid : Option String) (φ : Nat → Option Nat) (rec : Match) : Prop where
  nodeDom : ∀ x, x ∈ rec.nodes.keys ↔ (φ x).isSome
  edgeDom : ∀ e, e ∈ rec.edges.keys ↔ e ∈ p.edges.keys
  nodes : ∀ x y a, φ x = some y → s.nodes.get? y = some a → ∃ b, rec.nodes.get? x = some b ∧
    ∀ k, b.get? k = match fid with
      | none => a.get? k
      | some f => if k = "FID" ∨ k = "fid" then some f else a.get? k
  edges : ∀ x x' y y', (x, x') ∈ p.edges.keys → φ x = some y → φ x' = some y' →
    rec.edges.get? (x, x') = s.edges.get? (y, y')

/-- The values of the target attributes of the word that the target node is mapped to, joined. -/
def rawTarget (s : Graph) (m : Macro) (φ : Nat → Option Nat) : String :=
  m.connector.intercalate ((m.targetAttrs.keys.filter (fun a => !isTokenAttr a)).map
    (fun a => valueOf ((φ m.targetIdx).bind (fun y => s.nodes.get? y)) a))

/-- The filter keeps the match. -/
def keeps (s : Graph) (m : Macro) (d : Dict Nat Nat) : Bool :=
  match m.filter with
  | none => true
  | some l => decide (rawTarget s m (Dict.get? d) ∈ l)

/-! ## Proofs -/

section
variable {rx : String → String → Bool} {s : Graph} {m : Macro}

theorem mapM_filterMap {γ δ : Type} (f : γ → Except Err (Option δ)) (k : γ → Bool) (rel : γ → δ → Prop) (l : List γ)
    (h1 : ∀ x ∈ l, k x = true → ∃ y, f x = .ok (some y) ∧ rel x y) (h2 : ∀ x ∈ l, k x = false → f x = .ok none) :
    ∃ ys, l.mapM f = .ok ys ∧ List.Forall₂ rel (l.filter k) (ys.filterMap id) := by
  induction l with
  | nil => exact ⟨[], rfl, .nil⟩
  | cons x l ih =>
    obtain ⟨ys, hys, hrel⟩ := ih (fun z hz => h1 z (by simp [hz])) (fun z hz => h2 z (by simp [hz]))
    rw [List.mapM_cons, hys]
    cases hk : k x with
    | true =>
      obtain ⟨y, hy, hxy⟩ := h1 x (by simp) hk
      refine ⟨some y :: ys, by rw [hy]; rfl, ?_⟩
      rw [List.filter_cons_of_pos hk]
      exact .cons hxy hrel
    | false =>
      refine ⟨none :: ys, by rw [h2 x (by simp) hk]; rfl, ?_⟩
      rw [List.filter_cons_of_neg (by simp [hk])]
      exact hrel

theorem mapM_get? {κ ν : Type} [DecidableEq κ] {ρ : Type} (f : κ × ρ → Except Err (κ × ν)) (l : List (κ × ρ)) (g : κ × ρ → ν)
    (h : ∀ e ∈ l, f e = .ok (e.1, g e)) : l.mapM f = .ok (l.map (fun e => (e.1, g e))) := mapM_ok _ _ _ h

theorem get?_map_val {κ ν μ : Type} [DecidableEq κ] (l : List (κ × ν)) (g : κ × ν → μ) (k : κ) :
    Dict.get? (l.map (fun e => (e.1, g e))) k = (Dict.get? l k).map (fun v => g (k, v)) := by
  induction l with
  | nil => rfl
  | cons e l ih =>
    obtain ⟨a, v⟩ := e
    rw [List.map_cons, Dict.get?_cons, Dict.get?_cons, ih]
    by_cases h : a = k
    · subst h; simp
    · simp [h]

theorem keys_map_val {κ ν μ : Type} (l : List (κ × ν)) (g : κ × ν → μ) : Dict.keys (l.map (fun e => (e.1, g e))) = Dict.keys l := by
  unfold Dict.keys
  rw [List.map_map]
  rfl

/-- The record that `add_match` makes of a map. -/
def recordOf (s : Graph) (fid : Option String) (m : Macro) (d : Dict Nat Nat) : Match :=
  ⟨(match fid with
    | none => d.map (fun e => (e.1, (s.nodes.get? e.2).getD []))
    | some f => (d.map (fun e => (e.1, (s.nodes.get? e.2).getD []))).map (fun e => (e.1, Dict.set (Dict.set e.2 "FID" f) "fid" f))),
   m.graph.edges.keys.map (fun e => (e, (s.edges.get? ((d.get? e.1).getD 0, (d.get? e.2).getD 0)).getD []))⟩

theorem fits_total {p : Graph} {φ : Nat → Option Nat} (F : Fits rx s p φ) {x y : Nat} (h : φ x = some y) :
    ∃ item, s.nodes.get? y = some item := by
  have hx := (F.dom x).1 (by rw [h]; rfl)
  obtain ⟨pat, hp⟩ := Option.isSome_iff_exists.1 ((Dict.get?_isSome_iff p.nodes x).2 hx)
  obtain ⟨item, hi, _⟩ := F.node x y pat h hp
  exact ⟨item, hi⟩

theorem addOne_eq (R : Ready s m.graph) {r : Nat} (T : RootedTree m.graph r) {d : Dict Nat Nat} (hd : d.WF) (F : Fits rx s m.graph (Dict.get? d))
    (fid : Option String) (hti : m.targetIdx ∈ m.graph.nodes.keys)
    (hta : ∀ y item, s.nodes.get? y = some item → item ≠ [] → ∀ a ∈ m.targetAttrs.keys, isTokenAttr a = false → a ∈ item.keys) :
    addOne s fid m d = .ok (if keeps s m d then some (recordOf s fid m d) else none) := by
  have hnodes : d.mapM (nodeAttrs s) = .ok (d.map (fun e => (e.1, (s.nodes.get? e.2).getD []))) := by
    apply mapM_ok
    rintro ⟨x, y⟩ he
    obtain ⟨item, hi⟩ := fits_total F (Dict.get?_of_mem hd he)
    unfold nodeAttrs
    rw [getD_ok hi]
    simp only [bind, Except.bind, hi, Option.getD_some]
  have hpass : passes m (d.map (fun e => (e.1, (s.nodes.get? e.2).getD []))) = .ok (keeps s m d) := by
    unfold passes keeps
    cases hf : m.filter with
    | none => rfl
    | some l =>
      simp only
      obtain ⟨y, hy⟩ := Option.isSome_iff_exists.1 ((F.dom m.targetIdx).2 hti)
      obtain ⟨pat, hp⟩ := Option.isSome_iff_exists.1 ((Dict.get?_isSome_iff m.graph.nodes m.targetIdx).2 hti)
      obtain ⟨item, hi, hsat⟩ := F.node m.targetIdx y pat hy hp
      have hne : item ≠ [] := by
        rintro rfl
        have := R.nodeAsks _ _ hp
        obtain ⟨⟨a, re⟩, t, rfl⟩ := List.exists_cons_of_ne_nil this
        obtain ⟨v, hv, _⟩ := hsat a re (by simp)
        cases hv
      have hg : Dict.get? (d.map (fun e => (e.1, (s.nodes.get? e.2).getD []))) m.targetIdx = some item := by
        rw [get?_map_val d (fun e => (s.nodes.get? e.2).getD []), hy]
        simp [hi]
      unfold filterKey
      rw [getD_ok hg]
      simp only [bind, Except.bind]
      rw [mapM_ok _ (fun a => valueOf (some item) a)]
      · simp only
        unfold rawTarget
        rw [hy]
        simp only [Option.bind, hi]
      · intro a ha
        rw [List.mem_filter] at ha
        have := hta y item hi hne a ha.1 (by simpa using ha.2)
        obtain ⟨v, hv⟩ := Option.isSome_iff_exists.1 ((Dict.get?_isSome_iff item a).2 this)
        rw [getD_ok hv]
        simp [valueOf, hv]
  have hedges : m.graph.edges.keys.mapM (edgeAttrs s d) =
      .ok (m.graph.edges.keys.map (fun e => (e, (s.edges.get? ((d.get? e.1).getD 0, (d.get? e.2).getD 0)).getD []))) := by
    apply mapM_ok
    rintro ⟨x, x'⟩ he
    have hxy := T.ends x x' he
    obtain ⟨y, hy⟩ := Option.isSome_iff_exists.1 ((F.dom x).2 hxy.1)
    obtain ⟨y', hy'⟩ := Option.isSome_iff_exists.1 ((F.dom x').2 hxy.2)
    obtain ⟨pat, hp⟩ := Option.isSome_iff_exists.1 ((Dict.get?_isSome_iff m.graph.edges (x, x')).2 he)
    obtain ⟨item, hi, _⟩ := F.edge x x' y y' pat hp hy hy'
    unfold edgeAttrs
    rw [getD_ok hy, getD_ok hy']
    simp only [bind, Except.bind]
    rw [getD_ok hi]
    simp only [hy, hy', Option.getD_some, hi]
  unfold addOne
  rw [hnodes]
  simp only [bind, Except.bind]
  rw [hpass]
  simp only
  by_cases hk : keeps s m d = true
  · rw [if_pos hk, if_pos hk, hedges]
    unfold recordOf
    cases fid <;> rfl
  · rw [if_neg hk, if_neg hk]

theorem recordOf_records {r : Nat} (T : RootedTree m.graph r) {d : Dict Nat Nat} (F : Fits rx s m.graph (Dict.get? d))
    (fid : Option String) : Records s m.graph fid (Dict.get? d) (recordOf s fid m d) := by
  refine ⟨?_, ?_, ?_, ?_⟩
  · intro x
    unfold recordOf
    cases fid with
    | none =>
      simp only
      rw [keys_map_val d (fun e => (s.nodes.get? e.2).getD []), Dict.get?_isSome_iff]
    | some f =>
      simp only
      rw [keys_map_val _ (fun e => Dict.set (Dict.set e.2 "FID" f) "fid" f), keys_map_val d (fun e => (s.nodes.get? e.2).getD []),
        Dict.get?_isSome_iff]
  · intro e
    unfold recordOf
    simp only
    rw [keys_graph]
  · intro x y a hx ha
    unfold recordOf
    cases fid with
    | none =>
      refine ⟨a, ?_, fun k => rfl⟩
      simp only
      rw [get?_map_val d (fun e => (s.nodes.get? e.2).getD []), hx]
      simp [ha]
    | some f =>
      refine ⟨Dict.set (Dict.set a "FID" f) "fid" f, ?_, ?_⟩
      · simp only
        rw [get?_map_val _ (fun e => Dict.set (Dict.set e.2 "FID" f) "fid" f), get?_map_val d (fun e => (s.nodes.get? e.2).getD []), hx]
        simp [ha]
      · intro k
        rw [Dict.get?_set, Dict.get?_set]
        by_cases h1 : "fid" = k
        · simp [← h1]
        · by_cases h2 : "FID" = k
          · simp [← h2]
          · simp [h1, h2, Ne.symm h1, Ne.symm h2]
  · intro x x' y y' he hx hx'
    unfold recordOf
    simp only
    rw [get?_graph, if_pos he]
    simp only [hx, hx', Option.getD_some]
    obtain ⟨pat, hp⟩ := Option.isSome_iff_exists.1 ((Dict.get?_isSome_iff m.graph.edges (x, x')).2 he)
    obtain ⟨item, hi, _⟩ := F.edge x x' y y' pat hp hx hx'
    rw [hi]
    rfl

theorem treeMaps_wf {p : Graph} (R : Ready s p) {r d : Nat} (T : RootedTree p r) (h1 : 1 ∈ p.nodes.keys) (hd1 : 1 ≤ d) {maps : List (Dict Nat Nat)}
    (h : treeMaps rx s p d = .ok maps) : ∀ x ∈ maps, Dict.WF x := by
  rw [treeMaps_eq R T h1 hd1] at h
  cases h
  intro x hx
  obtain ⟨e, _, hx⟩ := List.mem_flatMap.1 hx
  split at hx
  · obtain ⟨lm, hlm, rfl⟩ := List.mem_map.1 hx
    obtain ⟨φ, rfl, _⟩ := (mem_rounds R T _ _ lm).1 hlm
    rw [mergeLevels_eq R T]
    unfold Dict.WF
    rw [keys_graph]
    exact T.upTo_nodup _
  · cases hx

/-- **C37/C38**: matching a macro against a sentence tree appends one record for every map that satisfies the pattern
and that the filter keeps, and nothing else.  The filter looks up the raw values of the target attributes; see
`C38_target_string` for when this is the target string, and `C38_false_group` for when it is not. -/
theorem C38_partial (R : Ready s m.graph) {r : Nat} (T : RootedTree m.graph r) (h1 : 1 ∈ m.graph.nodes.keys)
    (hdep : getDepth m.graph = .ok m.depth) (fid : Option String) (hti : m.targetIdx ∈ m.graph.nodes.keys)
    (hta : ∀ y item, s.nodes.get? y = some item → item ≠ [] → ∀ a ∈ m.targetAttrs.keys, isTokenAttr a = false → a ∈ item.keys) :
    ∃ (maps : List (Dict Nat Nat)) (recs : List Match), (maps.map Dict.get?).Nodup ∧ (∀ φ, φ ∈ maps.map Dict.get? ↔ Fits rx s m.graph φ) ∧
      treeMatch rx true s fid m = .ok { m with found := m.found ++ recs } ∧
      List.Forall₂ (fun d rec => Records s m.graph fid (Dict.get? d) rec) (maps.filter (keeps s m)) recs := by
  obtain ⟨maps, hmaps, hnd, hfit⟩ := C37_partial (rx := rx) R T h1 hdep
  have hd1 : 1 ≤ m.depth := by
    obtain ⟨d', hd', ⟨_, i, _, _, hdi⟩, _⟩ := getDepth_levels T
    rw [hdep] at hd'
    cases hd'
    omega
  have hwf := treeMaps_wf R T h1 hd1 hmaps
  have hf : ∀ d ∈ maps, Fits rx s m.graph (Dict.get? d) := fun d hd => (hfit _).1 (List.mem_map_of_mem hd)
  obtain ⟨ys, hys, hrel⟩ := mapM_filterMap (addOne s fid m) (keeps s m) (fun d rec => Records s m.graph fid (Dict.get? d) rec) maps
    (fun d hd hk => ⟨recordOf s fid m d, by rw [addOne_eq R T (hwf d hd) (hf d hd) fid hti hta, if_pos hk], recordOf_records T (hf d hd) fid⟩)
    (fun d hd hk => by rw [addOne_eq R T (hwf d hd) (hf d hd) fid hti hta, if_neg (by simp [hk])])
  refine ⟨maps, ys.filterMap id, hnd, hfit, ?_, hrel⟩
  unfold treeMatch
  rw [if_pos rfl, hmaps]
  simp only [bind, Except.bind]
  rw [hys]

/-- Sentences which are not trees are skipped. -/
theorem C37_not_tree (fid : Option String) : treeMatch rx false s fid m = .ok m := rfl

/-- **C38** is false without targets: the empty filter, which `DepRelHandler` sets when no targets are given, keeps no
match at all. -/
theorem C38_false_no_targets (R : Ready s m.graph) {r : Nat} (T : RootedTree m.graph r) (h1 : 1 ∈ m.graph.nodes.keys)
    (hdep : getDepth m.graph = .ok m.depth) (fid : Option String) (hti : m.targetIdx ∈ m.graph.nodes.keys)
    (hta : ∀ y item, s.nodes.get? y = some item → item ≠ [] → ∀ a ∈ m.targetAttrs.keys, isTokenAttr a = false → a ∈ item.keys)
    (hfil : m.filter = some []) : treeMatch rx true s fid m = .ok m := by
  obtain ⟨maps, recs, _, _, h3, h4⟩ := C38_partial (rx := rx) R T h1 hdep fid hti hta
  have : maps.filter (keeps s m) = [] := by
    rw [List.filter_eq_nil_iff]
    intro d _
    unfold keeps
    rw [hfil]
    simp
  rw [this] at h4
  cases h4
  rw [h3, List.append_nil]

/-- The map of a match never sends two pattern nodes to one word, if the sentence is a rooted tree. -/
theorem C37_injective {p : Graph} {r t : Nat} (T : RootedTree p r) (S : RootedTree s t) {φ : Nat → Option Nat} (F : Fits rx s p φ)
    {x y b : Nat} (hx : φ x = some b) (hy : φ y = some b) : x = y := by
  have hedge : ∀ u v a c, HasEdge p u v → φ u = some a → φ v = some c → HasEdge s a c := by
    intro u v a c huv ha hc
    obtain ⟨pat, hp⟩ := Option.isSome_iff_exists.1 ((Dict.get?_isSome_iff p.edges (u, v)).2 huv)
    obtain ⟨item, hi, _⟩ := F.edge u v a c pat hp ha hc
    exact (Dict.get?_isSome_iff s.edges (a, c)).1 (by rw [hi]; rfl)
  obtain ⟨r', hr'⟩ := Option.isSome_iff_exists.1 ((F.dom r).2 T.root)
  obtain ⟨k, hk⟩ : ∃ k, r' ∈ levels s t k := by
    obtain ⟨item, hi⟩ := fits_total F hr'
    exact S.levels_cover ((Dict.get?_isSome_iff s.nodes r').1 (by rw [hi]; rfl))
  have hlev : ∀ i u a, u ∈ levels p r i → φ u = some a → a ∈ levels s t (k + i) := by
    intro i
    induction i with
    | zero =>
      intro u a hu ha
      rw [List.mem_singleton.1 hu, hr'] at ha
      cases ha
      exact hk
    | succ i ih =>
      intro u a hu ha
      obtain ⟨w, hw, hwu⟩ := mem_levels_succ.1 hu
      obtain ⟨c, hc⟩ := Option.isSome_iff_exists.1 ((F.dom w).2 (T.levels_sub i hw))
      exact mem_levels_succ.2 ⟨c, ih w c hw hc, hedge w u c a hwu hc ha⟩
  have hin : ∀ i u v a, u ∈ levels p r i → v ∈ levels p r i → φ u = some a → φ v = some a → u = v := by
    intro i
    induction i with
    | zero => intro u v a hu hv _ _; rw [List.mem_singleton.1 hu, List.mem_singleton.1 hv]
    | succ i ih =>
      intro u v a hu hv ha hb
      obtain ⟨w, hw, hwu⟩ := mem_levels_succ.1 hu
      obtain ⟨w', hw', hwv⟩ := mem_levels_succ.1 hv
      obtain ⟨c, hc⟩ := Option.isSome_iff_exists.1 ((F.dom w).2 (T.levels_sub i hw))
      obtain ⟨c', hc'⟩ := Option.isSome_iff_exists.1 ((F.dom w').2 (T.levels_sub i hw'))
      have hcc : c = c' := S.oneHead _ _ _ (hedge w u c a hwu hc ha) (hedge w' v c' a hwv hc' hb)
      subst hcc
      have := ih w w' c hw hw' hc hc'
      subst this
      exact F.siblings w u v a hwu hwv ha hb
  obtain ⟨i, hi⟩ := T.levels_cover ((F.dom x).1 (by rw [hx]; rfl))
  obtain ⟨j, hj⟩ := T.levels_cover ((F.dom y).1 (by rw [hy]; rfl))
  have := S.levels_disjoint (hlev i x b hi hx) (hlev j y b hj hy)
  have hij : i = j := by omega
  subst hij
  exact hin i x y b hi hj hx hy

end

/-- **C38**: where the groups of the target format are the whole values, the string looked up in the filter is the target
string of the recorded match, so that the filter keeps exactly the matches whose target string it contains. -/
theorem C38_target_string {rx : String → String → Bool} {grp : String → String → Nat → Option String} {s : Graph} {m : Macro}
    {φ : Nat → Option Nat} {rec : Match} (F : Fits rx s m.graph φ) (hrec : Records s m.graph none φ rec)
    (hti : m.targetIdx ∈ m.graph.nodes.keys)
    (hpat : ∀ pat, m.graph.nodes.get? m.targetIdx = some pat → ∀ a ∈ m.targetAttrs.keys, isTokenAttr a = false → a ∈ pat.keys)
    (hgrp : ∀ re v gid, rx re v = true → grp re v gid = some v) :
    targetStr grp false m rec = .ok (rawTarget s m φ) := by
  obtain ⟨y, hy⟩ := Option.isSome_iff_exists.1 ((F.dom m.targetIdx).2 hti)
  obtain ⟨pat, hp⟩ := Option.isSome_iff_exists.1 ((Dict.get?_isSome_iff m.graph.nodes m.targetIdx).2 hti)
  obtain ⟨item, hi, hsat⟩ := F.node m.targetIdx y pat hy hp
  obtain ⟨b, hb, hbk⟩ := hrec.nodes m.targetIdx y item hy hi
  unfold targetStr
  rw [getD_ok hp, getD_ok hb]
  simp only [bind, Except.bind]
  rw [mapM_ok _ (fun e : String × Nat => if isTokenAttr e.1 then none else some (valueOf (some item) e.1))]
  · simp only
    unfold rawTarget
    rw [hy]
    simp only [Option.bind, hi]
    congr 2
    unfold Dict.keys
    generalize m.targetAttrs = l
    induction l with
    | nil => rfl
    | cons e l ih =>
      rw [List.map_cons, List.map_cons, List.filterMap_cons]
      cases ht : isTokenAttr e.1 with
      | true =>
        rw [List.filter_cons_of_neg (by simp [ht])]
        simpa using ih
      | false =>
        rw [List.filter_cons_of_pos (by simp [ht])]
        simpa using ih
  · intro e he
    unfold targetAttr
    cases ht : isTokenAttr e.1 with
    | true => rfl
    | false =>
      have hk := hpat pat hp e.1 (by unfold Dict.keys; exact List.mem_map_of_mem he) ht
      obtain ⟨re, hre⟩ := Option.isSome_iff_exists.1 ((Dict.get?_isSome_iff pat e.1).2 hk)
      obtain ⟨v, hv, hr⟩ := hsat e.1 re (Dict.mem_of_get? hre)
      have hbv : Dict.get? b e.1 = some v := by rw [hbk]; exact hv
      unfold attrRepr
      rw [getD_ok hre, getD_ok hbv]
      simp [bind, Except.bind, groupStr, hgrp re v e.2 hr, valueOf, hv]

/-! ### Examples -/

/-- Verbs with two nouns, the target being node 2, with a filter. -/
def verbMacro (filter : Option (List String)) : Macro :=
  { graph := verbPat, targetIdx := 2, featureIdx := none, targetAttrs := [("LEMMA", 1), ("POS", 1)], featNodeAttrs := [("LEMMA", 1)], featEdgeAttrs := [("DEPREL", 1)], filter := filter, connector := "/", depth := 2, found := [] }

theorem verbMacro_attrs (filter : Option (List String)) : ∀ y item, eats.nodes.get? y = some item → item ≠ [] →
    ∀ a ∈ (verbMacro filter).targetAttrs.keys, isTokenAttr a = false → a ∈ item.keys := by
  have : ∀ e ∈ eats.nodes, e.2 ≠ [] → ∀ a ∈ ["LEMMA", "POS"], isTokenAttr a = false → a ∈ e.2.map (fun e => e.1) := by decide
  intro y item h hne
  exact this _ (Dict.mem_of_get? h) hne

/-- With the filter `apple/N` one of the two matches is recorded. -/
example : ∃ (maps : List (Dict Nat Nat)) (recs : List Match), (∀ φ, φ ∈ maps.map Dict.get? ↔ Fits rx0 eats verbPat φ) ∧
    treeMatch rx0 true eats none (verbMacro (some ["apple/N"])) = .ok { verbMacro (some ["apple/N"]) with found := recs } ∧
    recs.length = 1 := by
  obtain ⟨maps, recs, h1, h2, h3, h4⟩ := C38_partial (m := verbMacro (some ["apple/N"])) (rx := rx0) eats_ready verbPat_rooted (by decide) (by decide)
    none (by decide) (verbMacro_attrs _)
  refine ⟨maps, recs, h2, h3, ?_⟩
  have h5 : (match treeMatch rx0 true eats none (verbMacro (some ["apple/N"])) with
    | .ok m => m.found.length
    | .error _ => 0) = 1 := by decide
  rw [h3] at h5
  simpa [verbMacro] using h5

/-- Without targets nothing is recorded, though two maps fit. -/
example : treeMatch rx0 true eats none (verbMacro (some [])) = .ok (verbMacro (some [])) :=
  C38_false_no_targets (m := verbMacro (some [])) (rx := rx0) eats_ready verbPat_rooted (by decide) (by decide) none (by decide) (verbMacro_attrs _) rfl

/-- A group shorter than the value: the first letter. -/
def grp1 (_re v : String) (_gid : Nat) : Option String := some (String.ofList (v.toList.take 1))

/-- A group that is the whole value. -/
def grp0 (_re v : String) (_gid : Nat) : Option String := some v

/-- **C38** is false where the groups of the target format are shorter than the values (as in the tag format `(N)\w*`):
the recorded matches have the target string `a/N`, and the filter `a/N` removes them all. -/
theorem C38_false_group :
    (∃ m, treeMatch rx0 true eats none (verbMacro none) = .ok m ∧ ∃ rec ∈ m.found, targetStr grp1 false (verbMacro none) rec = .ok "a/N") ∧
    ∃ m, treeMatch rx0 true eats none (verbMacro (some ["a/N"])) = .ok m ∧ m.found = [] := by
  constructor
  · obtain ⟨maps, recs, h1, h2, h3, h4⟩ := C38_partial (m := verbMacro none) (rx := rx0) eats_ready verbPat_rooted (by decide) (by decide)
      none (by decide) (verbMacro_attrs _)
    refine ⟨_, h3, ?_⟩
    have h5 : (match treeMatch rx0 true eats none (verbMacro none) with
      | .ok m => decide (∃ rec ∈ m.found, targetStr grp1 false (verbMacro none) rec = .ok "a/N")
      | .error _ => false) = true := by decide
    rw [h3] at h5
    simpa using h5
  · obtain ⟨maps, recs, h1, h2, h3, h4⟩ := C38_partial (m := verbMacro (some ["a/N"])) (rx := rx0) eats_ready verbPat_rooted (by decide) (by decide)
      none (by decide) (verbMacro_attrs _)
    refine ⟨_, h3, ?_⟩
    have h5 : (match treeMatch rx0 true eats none (verbMacro (some ["a/N"])) with
      | .ok m => decide (m.found = [])
      | .error _ => false) = true := by decide
    rw [h3] at h5
    simpa using h5

example : ∃ rec, targetStr grp0 false (verbMacro none) rec = .ok (rawTarget eats (verbMacro none) (Dict.get? [(1, 2), (2, 3), (3, 1)])) ∧
    rawTarget eats (verbMacro none) (Dict.get? [(1, 2), (2, 3), (3, 1)]) = "apple/N" := by
  have F : Fits rx0 eats (verbMacro none).graph (Dict.get? [(1, 2), (2, 3), (3, 1)]) := by
    obtain ⟨maps, h1, h2, h3⟩ := C37_partial (rx := rx0) eats_ready verbPat_rooted (by decide) (d := 2) (by decide)
    have : treeMaps rx0 eats verbPat 2 = .ok [[(1, 2), (2, 1), (3, 3)], [(1, 2), (2, 3), (3, 1)]] := by decide
    rw [this] at h1
    cases h1
    exact (h3 _).1 (by simp)
  refine ⟨recordOf eats none (verbMacro none) [(1, 2), (2, 3), (3, 1)],
    C38_target_string F (recordOf_records verbPat_rooted F none) (by decide) ?_ (fun _ _ _ _ => rfl), by decide⟩
  intro pat hp
  cases hp
  decide

/-- No word is used twice. -/
example {φ : Nat → Option Nat} (F : Fits rx0 verbPat verbPat φ) {x y b : Nat} (hx : φ x = some b) (hy : φ y = some b) : x = y :=
  C37_injective verbPat_rooted verbPat_rooted F hx hy

end Verif.Dep
