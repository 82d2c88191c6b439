import Verif.Dep.PropsRecord

set_option linter.unusedSectionVars false

/-!
# C66, C68: what a feature string says about the target
-/

namespace Verif.Dep
open Verif.Py

/-! ## Specification -/

/-- Two matches of a pattern that differ at most in the target word. -/
structure SameContext (grp : String → String → Nat → Option String) (m : Macro) (mt mt' : Match) : Prop where
  words : ∀ v, v ≠ m.targetIdx → nodeText grp m mt v = nodeText grp m mt' v
  relations : ∀ e, edgeText grp m mt e = edgeText grp m mt' e

/-! ## Proofs -/

theorem colon_lt {A B X Y X' Y' : List Char} (hA : ':' ∉ A) (hB : ':' ∉ B) (hne : A ≠ B) :
    (A ++ ':' :: X < B ++ ':' :: Y ↔ A ++ ':' :: X' < B ++ ':' :: Y') := by
  induction A generalizing B with
  | nil =>
    cases B with
    | nil => exact absurd rfl hne
    | cons b B =>
      have hb : ':' ≠ b := fun h => hB (by rw [← h]; simp)
      rw [List.nil_append, List.nil_append, List.cons_append, List.cons_append, List.cons_lt_cons_iff, List.cons_lt_cons_iff]
      simp [hb]
  | cons a A ih =>
    cases B with
    | nil =>
      have ha : a ≠ ':' := fun h => hA (by rw [h]; simp)
      rw [List.nil_append, List.nil_append, List.cons_append, List.cons_append, List.cons_lt_cons_iff, List.cons_lt_cons_iff]
      simp [ha]
    | cons b B =>
      rw [List.cons_append, List.cons_append, List.cons_append, List.cons_append, List.cons_lt_cons_iff, List.cons_lt_cons_iff]
      by_cases hab : a = b
      · subst hab
        have := ih (B := B) (fun h => hA (by simp [h])) (fun h => hB (by simp [h])) (fun h => hne (by rw [h]))
        rw [this]
      · simp [hab]

theorem colon_toList (a b : String) : (colon a b).toList = a.toList ++ ':' :: b.toList := by
  unfold colon
  rw [String.toList_append, String.toList_append]
  have : (":" : String).toList = [':'] := rfl
  rw [this]
  simp

theorem colon_le {a b x y x' y' : String} (ha : NoColon a) (hb : NoColon b) (hne : a ≠ b) :
    (colon a x ≤ colon b y ↔ colon a x' ≤ colon b y') := by
  rw [← not_lt, ← not_lt, String.lt_iff_toList_lt, String.lt_iff_toList_lt, colon_toList, colon_toList, colon_toList, colon_toList]
  rw [colon_lt hb ha (fun h => hne (String.toList_inj.1 h.symm))]

theorem sorted_same (l : List Nat) (f g : Nat → String) (h : ∀ a ∈ l, ∀ b ∈ l, (f a ≤ f b ↔ g a ≤ g b)) :
    ∃ o : List Nat, o.Perm l ∧ sortedBy (fun e : Nat × String => e.2) (l.map (fun w => (w, f w))) = o.map (fun w => (w, f w)) ∧
      sortedBy (fun e : Nat × String => e.2) (l.map (fun w => (w, g w))) = o.map (fun w => (w, g w)) := by
  refine ⟨l.insertionSort (fun a b => f a ≤ f b), List.perm_insertionSort _ _, ?_, ?_⟩
  · unfold sortedBy
    rw [List.map_insertionSort (f := fun w => (w, f w)) (s := fun a b : Nat × String => a.2 ≤ b.2) (l := l) (hl := fun a _ b _ => Iff.rfl)]
  · unfold sortedBy
    rw [List.map_insertionSort (f := fun w => (w, g w)) (s := fun a b : Nat × String => a.2 ≤ b.2) (l := l) (hl := fun a ha b hb => h a ha b hb)]

section
variable {grp : String → String → Nat → Option String} {m : Macro} {mt mt' : Match}

theorem preorder_same {r : Nat} (T : RootedTree m.graph r) (C : Complete m mt) (C' : Complete m mt') (hs : SameContext grp m mt mt')
    (hsib : ∀ u, HasEdge m.graph u m.targetIdx → (∀ w, HasEdge m.graph u w → w = m.targetIdx) ∨
      ((∀ w, HasEdge m.graph u w → NoColon (edgeText grp m mt (u, w))) ∧
        ∀ w, HasEdge m.graph u w → w ≠ m.targetIdx → edgeText grp m mt (u, w) ≠ edgeText grp m mt (u, m.targetIdx)))
    (n : Nat) : ∀ v, preorder grp m mt n v = preorder grp m mt' n v := by
  induction n with
  | zero => intro v; rfl
  | succ n ih =>
    intro v
    unfold preorder
    cases hsucc : m.graph.succ v with
    | nil => rfl
    | cons w ws =>
      have hedge : ∀ x ∈ w :: ws, HasEdge m.graph v x := fun x hx => mem_succ.1 (by rw [hsucc]; exact hx)
      cases ws with
      | nil =>
        have hw := hedge w (by simp)
        simp only
        have : shownOne grp m mt v w = shownOne grp m mt' v w := by
          unfold shownOne
          rw [edgeRepr_eq C hw, edgeRepr_eq C' hw, nodeRepr_eq C (T.ends _ _ hw).2, nodeRepr_eq C' (T.ends _ _ hw).2, hs.relations]
          simp only [bind, Except.bind]
          by_cases ht : w = m.targetIdx
          · rw [if_pos ht, if_pos ht]
          · rw [if_neg ht, if_neg ht, hs.words w ht]
        rw [this, ih w]
      | cons w2 ws =>
        simp only
        rw [← hsucc] at hedge ⊢
        have hmap : ∀ {mt : Match}, Complete m mt → (m.graph.succ v).mapM (succRepr grp m mt v) =
            .ok ((m.graph.succ v).map (fun w => (w, colon (edgeText grp m mt (v, w)) (nodeText grp m mt w)))) := by
          intro mt C
          apply mapM_ok
          intro w hw
          have hw' := mem_succ.1 hw
          unfold succRepr
          rw [edgeRepr_eq C hw', nodeRepr_eq C (T.ends _ _ hw').2]
          rfl
        rw [hmap C, hmap C']
        simp only [bind, Except.bind]
        have hle : ∀ a ∈ m.graph.succ v, ∀ b ∈ m.graph.succ v,
            (colon (edgeText grp m mt (v, a)) (nodeText grp m mt a) ≤ colon (edgeText grp m mt (v, b)) (nodeText grp m mt b) ↔
             colon (edgeText grp m mt' (v, a)) (nodeText grp m mt' a) ≤ colon (edgeText grp m mt' (v, b)) (nodeText grp m mt' b)) := by
          intro a ha b hb
          rw [← hs.relations, ← hs.relations]
          by_cases hab : a = b
          · subst hab
            exact ⟨fun _ => le_refl _, fun _ => le_refl _⟩
          by_cases hta : a = m.targetIdx
          · have hva := hedge a ha
            rw [hta] at hva
            rcases hsib v hva with h | ⟨h1, h2⟩
            · exact absurd (hta.trans (h b (hedge b hb)).symm) hab
            · have hne := h2 b (hedge b hb) (fun h => hab (hta.trans h.symm))
              exact colon_le (h1 a (hedge a ha)) (h1 b (hedge b hb)) (by rw [hta]; exact Ne.symm hne)
          · by_cases htb : b = m.targetIdx
            · have hvb := hedge b hb
              rw [htb] at hvb
              rcases hsib v hvb with h | ⟨h1, h2⟩
              · exact absurd (h a (hedge a ha)) hta
              · have hne := h2 a (hedge a ha) hta
                exact colon_le (h1 a (hedge a ha)) (h1 b (hedge b hb)) (by rw [htb]; exact hne)
            · rw [hs.words a hta, hs.words b htb]
        obtain ⟨o, hperm, ho1, ho2⟩ := sorted_same (m.graph.succ v) _ _ hle
        rw [ho1, ho2]
        have hparts : (o.map (fun w => (w, colon (edgeText grp m mt (v, w)) (nodeText grp m mt w)))).mapM
              (fun e => addRest m e (preorder grp m mt n e.1)) =
            (o.map (fun w => (w, colon (edgeText grp m mt' (v, w)) (nodeText grp m mt' w)))).mapM
              (fun e => addRest m e (preorder grp m mt' n e.1)) := by
          rw [List.mapM_map, List.mapM_map]
          congr 1
          funext w
          simp only [Function.comp_def]
          rw [ih w]
          unfold addRest shown
          simp only
          by_cases ht : w = m.targetIdx
          · simp only [if_pos ht]
            rw [firstPart_colon, firstPart_colon, hs.relations]
          · simp only [if_neg ht]
            rw [hs.relations, hs.words w ht]
        rw [hparts]

/-- **C66** (partial): every dependent shown is shown with its whole relation and its word (`#T#` for the target), if the
relation of the target has no colon or the target is an only dependent.  Missing: `C66_false_colon`. -/
theorem C66_partial {r : Nat} (T : RootedTree m.graph r) (h1 : 1 ∈ m.graph.nodes.keys) (C : Complete m mt)
    (hcol : ∀ u, HasEdge m.graph u m.targetIdx → NoColon (edgeText grp m mt (u, m.targetIdx)) ∨ ∀ w, HasEdge m.graph u w → w = m.targetIdx) :
    ∃ l str, featureFull grp m mt = .ok (hiddenText grp m mt 1 ++ str) ∧ Shows m.graph (goodLab grp m mt) 1 l str ∧ (1 :: l).Nodup ∧
      ∀ x, x ∈ 1 :: l ↔ Relation.ReflTransGen (HasEdge m.graph) 1 x := by
  obtain ⟨l, str, h1, h2, h3, h4⟩ := featureFull_shows (grp := grp) T h1 C
  exact ⟨l, str, h1, shows_congr (fun u v => codeLab_good T hcol) h2, h3, h4⟩

/-- **C68** (partial): the feature string of a match does not depend on the target word, if the target is an only
dependent, or if it differs from its fellow dependents by its relation (and relations have no colons).  Missing for the
full claim: fellow dependents with the same relation, see `C68_false_order`. -/
theorem C68_partial {r : Nat} (T : RootedTree m.graph r) (h1 : 1 ∈ m.graph.nodes.keys) (C : Complete m mt) (C' : Complete m mt')
    (hs : SameContext grp m mt mt')
    (hsib : ∀ u, HasEdge m.graph u m.targetIdx → (∀ w, HasEdge m.graph u w → w = m.targetIdx) ∨
      ((∀ w, HasEdge m.graph u w → NoColon (edgeText grp m mt (u, w))) ∧
        ∀ w, HasEdge m.graph u w → w ≠ m.targetIdx → edgeText grp m mt (u, w) ≠ edgeText grp m mt (u, m.targetIdx))) :
    featureFull grp m mt = featureFull grp m mt' ∧ ∃ str, featureFull grp m mt = .ok str := by
  obtain ⟨_, str, hstr, _⟩ := featureFull_shows (grp := grp) T h1 C
  refine ⟨?_, _, hstr⟩
  unfold featureFull
  rw [preorder_same T C C' hs hsib]
  congr 1
  by_cases ht : 1 = m.targetIdx
  · rw [if_pos ht, if_pos ht]
  · rw [if_neg ht, if_neg ht, nodeRepr_eq C h1, nodeRepr_eq C' h1, hs.words 1 ht]

end

/-- Checking completeness on the members. -/
theorem Complete.of_mem {m : Macro} {mt : Match} (hn : ∀ e ∈ m.graph.nodes, ∃ f ∈ mt.nodes, f.1 = e.1 ∧ m.graph.nodes.get? e.1 = some e.2 ∧ mt.nodes.get? e.1 = some f.2 ∧
      ∀ a ∈ m.featNodeAttrs, a.1 ∈ e.2.map (fun x => x.1) ∧ a.1 ∈ f.2.map (fun x => x.1) ∧ a.1 ≠ "lid")
    (he : ∀ e ∈ m.graph.edges, ∃ f ∈ mt.edges, f.1 = e.1 ∧ m.graph.edges.get? e.1 = some e.2 ∧ mt.edges.get? e.1 = some f.2 ∧
      ∀ a ∈ m.featEdgeAttrs, a.1 ∈ e.2.map (fun x => x.1) ∧ a.1 ∈ f.2.map (fun x => x.1)) : Complete m mt := by
  constructor
  · intro v hv
    obtain ⟨e, hem, rfl⟩ := List.mem_map.1 hv
    obtain ⟨f, _, _, h2, h3, h4⟩ := hn e hem
    refine ⟨_, _, h2, h3, ?_⟩
    intro a ha
    obtain ⟨c, hc, rfl⟩ := List.mem_map.1 ha
    exact h4 c hc
  · intro v hv
    obtain ⟨e, hem, rfl⟩ := List.mem_map.1 hv
    obtain ⟨f, _, _, h2, h3, h4⟩ := he e hem
    refine ⟨_, _, h2, h3, ?_⟩
    intro a ha
    obtain ⟨c, hc, rfl⟩ := List.mem_map.1 ha
    exact h4 c hc

/-- C42: a format with the line number. -/
example : nodeRepr grp0 { verbMacro none with graph := ⟨[(1, [("LEMMA", ".*"), ("lid", ".*")])], []⟩, featNodeAttrs := [("LEMMA", 1), ("lid", 1)] }
    ⟨[(1, [("LEMMA", "eat"), ("lid", "3")])], []⟩ 1 = .error .typeError :=
  C42_false_line (pat := [("LEMMA", ".*"), ("lid", ".*")]) (item := [("LEMMA", "eat"), ("lid", "3")]) rfl rfl (re := ".*") (l := "3") rfl rfl (by decide) (by decide)

/-- A match of the verb pattern: two nouns, `a` (the target) and `b`, with relations `ra` and `rb`. -/
def nouns (a b ra rb : String) : Match :=
  ⟨[(1, [("LEMMA", "eat"), ("POS", "V")]), (2, [("LEMMA", a), ("POS", "N")]), (3, [("LEMMA", b), ("POS", "N")])],
   [((1, 2), [("DEPREL", ra)]), ((1, 3), [("DEPREL", rb)])]⟩

theorem nouns_complete (a b ra rb : String) : Complete (verbMacro none) (nouns a b ra rb) := by
  refine Complete.of_mem ?_ ?_
  · intro e he
    simp only [verbMacro, verbPat, List.mem_cons, List.not_mem_nil, or_false] at he
    rcases he with rfl | rfl | rfl
    · exact ⟨(1, [("LEMMA", "eat"), ("POS", "V")]), by simp [nouns], rfl, rfl, rfl, by simp [verbMacro]⟩
    · exact ⟨(2, [("LEMMA", a), ("POS", "N")]), by simp [nouns], rfl, rfl, rfl, by simp [verbMacro]⟩
    · exact ⟨(3, [("LEMMA", b), ("POS", "N")]), by simp [nouns], rfl, rfl, rfl, by simp [verbMacro]⟩
  · intro e he
    simp only [verbMacro, verbPat, List.mem_cons, List.not_mem_nil, or_false] at he
    rcases he with rfl | rfl
    · exact ⟨((1, 2), [("DEPREL", ra)]), by simp [nouns], rfl, rfl, rfl, by simp [verbMacro]⟩
    · exact ⟨((1, 3), [("DEPREL", rb)]), by simp [nouns], rfl, rfl, rfl, by simp [verbMacro]⟩

theorem nouns_same (a a' b ra rb : String) : SameContext grp0 (verbMacro none) (nouns a b ra rb) (nouns a' b ra rb) := by
  refine ⟨?_, fun _ => rfl⟩
  intro v hv
  have hv' : ¬ (2 = v) := fun h => hv h.symm
  unfold nodeText nouns valueOf
  simp only [Dict.get?_cons, if_neg hv']

/-- **C68** is false for fellow dependents with the same relation: the position of `#T#` depends on where the target word
comes in the alphabet, so that one context gives two features. -/
theorem C68_false_order : SameContext grp0 (verbMacro none) (nouns "apple" "pear" "conj" "conj") (nouns "quince" "pear" "conj" "conj") ∧
    featureFull grp0 (verbMacro none) (nouns "apple" "pear" "conj" "conj") = .ok "eat->[conj:#T#,conj:pear]" ∧
    featureFull grp0 (verbMacro none) (nouns "quince" "pear" "conj" "conj") = .ok "eat->[conj:pear,conj:#T#]" :=
  ⟨nouns_same _ _ _ _ _, by decide, by decide⟩

/-- **C66** is false among several dependents: a relation with a colon is cut for the target (and only for the target). -/
theorem C66_false_colon :
    featureFull grp0 (verbMacro none) (nouns "apple" "boy" "nsubj:pass" "obl:agent") = .ok "eat->[nsubj:#T#,obl:agent:boy]" ∧
    featureFull grp0 (verbMacro none) (nouns "apple" "boy" "nsubj" "obl:agent") = .ok "eat->[nsubj:#T#,obl:agent:boy]" := by
  decide

theorem verbMacro_noColon {a b ra rb : String} (h : NoColon ra) : ∀ u, HasEdge (verbMacro none).graph u (verbMacro none).targetIdx →
    NoColon (edgeText grp0 (verbMacro none) (nouns a b ra rb) (u, (verbMacro none).targetIdx)) ∨
      ∀ w, HasEdge (verbMacro none).graph u w → w = (verbMacro none).targetIdx := by
  intro u hu
  left
  have hu' : u = 1 := by
    rcases verbPat_edge.1 hu with h | h
    · cases h; rfl
    · cases h
  subst hu'
  have : edgeText grp0 (verbMacro none) (nouns a b ra rb) (1, (verbMacro none).targetIdx) = ra := by
    show "/".intercalate [ra] = ra
    rfl
  rw [this]
  exact h

/-- All three nodes are shown. -/
example : ∃ l str, featureFull grp0 (verbMacro none) (nouns "apple" "boy" "obj" "nsubj") = .ok (hiddenText grp0 (verbMacro none) (nouns "apple" "boy" "obj" "nsubj") 1 ++ str) ∧
    Shows verbPat (goodLab grp0 (verbMacro none) (nouns "apple" "boy" "obj" "nsubj")) 1 l str ∧ (1 :: l).Perm [1, 2, 3] :=
  C42_partial (m := verbMacro none) verbPat_rooted (nouns_complete _ _ _ _) (verbMacro_noColon (by unfold NoColon; decide))

example : ∃ l str, featureFull grp0 (verbMacro none) (nouns "apple" "boy" "obj" "nsubj") = .ok (hiddenText grp0 (verbMacro none) (nouns "apple" "boy" "obj" "nsubj") 1 ++ str) ∧
    Shows verbPat (goodLab grp0 (verbMacro none) (nouns "apple" "boy" "obj" "nsubj")) 1 l str ∧ (1 :: l).Nodup ∧
      ∀ x, x ∈ 1 :: l ↔ Relation.ReflTransGen (HasEdge verbPat) 1 x :=
  C66_partial (m := verbMacro none) verbPat_rooted (by decide) (nouns_complete _ _ _ _) (verbMacro_noColon (by unfold NoColon; decide))

/-- Different relations: the feature does not depend on the target word. -/
example (a a' : String) : featureFull grp0 (verbMacro none) (nouns a "boy" "obj" "nsubj") = featureFull grp0 (verbMacro none) (nouns a' "boy" "obj" "nsubj") := by
  refine (C68_partial (m := verbMacro none) verbPat_rooted (by decide) (nouns_complete _ _ _ _) (nouns_complete _ _ _ _) (nouns_same _ _ _ _ _) ?_).1
  intro u hu
  right
  have hu' : u = 1 := by
    rcases verbPat_edge.1 hu with h | h
    · cases h; rfl
    · cases h
  subst hu'
  have e2 : edgeText grp0 (verbMacro none) (nouns a "boy" "obj" "nsubj") (1, 2) = "obj" := rfl
  have e3 : edgeText grp0 (verbMacro none) (nouns a "boy" "obj" "nsubj") (1, 3) = "nsubj" := rfl
  constructor
  · intro w hw
    rcases verbPat_edge.1 hw with h | h <;> cases h
    · rw [e2]; unfold NoColon; decide
    · rw [e3]; unfold NoColon; decide
  · intro w hw hne
    rcases verbPat_edge.1 hw with h | h <;> cases h
    · exact absurd rfl hne
    · rw [e3]
      show "nsubj" ≠ edgeText grp0 (verbMacro none) (nouns a "boy" "obj" "nsubj") (1, 2)
      rw [e2]; decide

/-- A noun below a verb, with node 1 (the target) at the bottom, as for the pattern `<-nsubj V`. -/
def upPat : Graph := ⟨[(1, [("LEMMA", ".*"), ("POS", "N")]), (2, [("LEMMA", ".*"), ("POS", "V")])], [((2, 1), [("DEPREL", "nsubj")])]⟩

def upMacro : Macro :=
  { graph := upPat, targetIdx := 1, featureIdx := none, targetAttrs := [("LEMMA", 1), ("POS", 1)], featNodeAttrs := [("LEMMA", 1)], featEdgeAttrs := [("DEPREL", 1)], filter := none, connector := "/", depth := 2, found := [] }

def upMatch (verb : String) : Match :=
  ⟨[(2, [("LEMMA", verb), ("POS", "V")]), (1, [("LEMMA", "boy"), ("POS", "N")])], [((2, 1), [("DEPREL", "nsubj")])]⟩

/-- All such matches have the same feature, whatever the verb. -/
example (verb : String) : featureFull grp0 upMacro (upMatch verb) = .ok "#T#" := rfl

theorem upPat_rooted : RootedTree upPat 2 := by
  have hn : upPat.nodes.keys = [1, 2] := rfl
  have he : ∀ u v, HasEdge upPat u v ↔ (u, v) = (2, 1) := by
    intro u v
    unfold HasEdge
    have : upPat.edges.keys = [(2, 1)] := rfl
    rw [this, List.mem_singleton]
  refine ⟨by unfold Dict.WF; decide, by unfold Dict.WF; decide, ?_, by decide, ?_, ?_, ?_⟩
  · intro u v h
    rw [he] at h; cases h; rw [hn]; decide
  · intro u h
    rw [he] at h; cases h
  · intro u u' v h h'
    rw [he] at h h'; cases h; cases h'; rfl
  · intro v hv
    rw [hn] at hv
    simp only [List.mem_cons, List.not_mem_nil, or_false] at hv
    rcases hv with rfl | rfl
    · exact .single ((he _ _).2 rfl)
    · exact .refl

example (verb : String) : ∃ l str, featureFull grp0 upMacro (upMatch verb) = .ok (hiddenText grp0 upMacro (upMatch verb) 1 ++ str) ∧
    Shows upPat (codeLab grp0 upMacro (upMatch verb)) 1 l str ∧ 2 ∈ upPat.nodes.keys ∧ 2 ∉ 1 :: l := by
  refine C42_false_root (m := upMacro) upPat_rooted (by decide) (by decide) (Complete.of_mem ?_ ?_)
  · intro e he
    simp only [upMacro, upPat, List.mem_cons, List.not_mem_nil, or_false] at he
    rcases he with rfl | rfl
    · exact ⟨(1, [("LEMMA", "boy"), ("POS", "N")]), by simp [upMatch], rfl, rfl, rfl, by simp [upMacro]⟩
    · exact ⟨(2, [("LEMMA", verb), ("POS", "V")]), by simp [upMatch], rfl, rfl, rfl, by simp [upMacro]⟩
  · intro e he
    simp only [upMacro, upPat, List.mem_cons, List.not_mem_nil, or_false] at he
    subst he
    exact ⟨((2, 1), [("DEPREL", "nsubj")]), by simp [upMatch], rfl, rfl, rfl, by simp [upMacro]⟩

end Verif.Dep
