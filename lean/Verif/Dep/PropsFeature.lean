import Verif.Dep.Feature
import Verif.Dep.PropsMatch

set_option linter.unusedSectionVars false

/-!
# C42, C66, C68: feature strings
-/

namespace Verif.Dep
open Verif.Py

/-! ## Specification -/

/-- The value of an attribute, the empty string if there is none. -/
def valueOf (a : Option Attrs) (k : String) : String := ((a.bind (fun d => d.get? k))).getD ""

/-- What a group of a regular expression matched in a value, `*` if the value or the group does not match. -/
def groupText (grp : String → String → Nat → Option String) (regex value : String) (gid : Nat) : String :=
  match grp regex value gid with
  | some t => t
  | none => "*"

/-- The text of a pattern node in a match: for each attribute of the feature format, the group of the regular expression
of that node in the value of the matched word, joined. -/
def nodeText (grp : String → String → Nat → Option String) (m : Macro) (mt : Match) (v : Nat) : String :=
  m.connector.intercalate (m.featNodeAttrs.map (fun e =>
    groupText grp (valueOf (m.graph.nodes.get? v) e.1) (valueOf (mt.nodes.get? v) e.1) e.2))

/-- The text of a pattern edge in a match. -/
def edgeText (grp : String → String → Nat → Option String) (m : Macro) (mt : Match) (e : Nat × Nat) : String :=
  m.connector.intercalate (m.featEdgeAttrs.map (fun a =>
    groupText grp (valueOf (m.graph.edges.get? e) a.1) (valueOf (mt.edges.get? e) a.1) a.2))

/-- The text of a node, the target being hidden. -/
def hiddenText (grp : String → String → Nat → Option String) (m : Macro) (mt : Match) (v : Nat) : String :=
  if v = m.targetIdx then "#T#" else nodeText grp m mt v

/-- The match has all attributes that the feature format asks for, which are no line numbers. -/
structure Complete (m : Macro) (mt : Match) : Prop where
  nodes : ∀ v ∈ m.graph.nodes.keys, ∃ pat item, m.graph.nodes.get? v = some pat ∧ mt.nodes.get? v = some item ∧
    ∀ a ∈ m.featNodeAttrs.keys, a ∈ pat.keys ∧ a ∈ item.keys ∧ a ≠ "lid"
  edges : ∀ e ∈ m.graph.edges.keys, ∃ pat item, m.graph.edges.get? e = some pat ∧ mt.edges.get? e = some item ∧
    ∀ a ∈ m.featEdgeAttrs.keys, a ∈ pat.keys ∧ a ∈ item.keys

/-- Grammar of feature strings: `Shows p lab v l str` says that `str` shows, below `v`, the nodes `l`, each with the label
`lab` of the edge that leads to it.  Several dependents are shown in brackets, in any order. -/
inductive Shows (p : Graph) (lab : Nat → Nat → String) : Nat → List Nat → String → Prop
  | leaf {v} : (∀ w, ¬ HasEdge p v w) → Shows p lab v [] ""
  | one {v w l str} : (∀ w', HasEdge p v w' ↔ w' = w) → Shows p lab w l str →
      Shows p lab v (w :: l) ("->" ++ lab v w ++ str)
  | many {v} (subs : List (Nat × List Nat × String)) : 2 ≤ subs.length → (subs.map (fun e => e.1)).Nodup →
      (∀ w, HasEdge p v w ↔ w ∈ subs.map (fun e => e.1)) → (∀ e ∈ subs, Shows p lab e.1 e.2.1 e.2.2) →
      Shows p lab v (subs.flatMap (fun e => e.1 :: e.2.1))
        ("->[" ++ ",".intercalate (subs.map (fun e => lab v e.1 ++ e.2.2)) ++ "]")

/-! ## Proofs -/

section
variable {grp : String → String → Nat → Option String} {m : Macro} {mt : Match}

theorem getD_ok {κ ν : Type} [DecidableEq κ] {d : Dict κ ν} {k : κ} {v : ν} (h : d.get? k = some v) : getD d k = .ok v := by
  unfold getD; rw [h]

theorem attrRepr_eq {pat item : Attrs} {e : String × Nat} (h1 : e.1 ∈ pat.keys) (h2 : e.1 ∈ item.keys) :
    attrRepr grp pat item e = .ok (groupText grp (valueOf (some pat) e.1) (valueOf (some item) e.1) e.2) := by
  obtain ⟨x, hx⟩ := Option.isSome_iff_exists.1 ((Dict.get?_isSome_iff pat e.1).2 h1)
  obtain ⟨y, hy⟩ := Option.isSome_iff_exists.1 ((Dict.get?_isSome_iff item e.1).2 h2)
  unfold attrRepr valueOf
  rw [getD_ok hx, getD_ok hy]
  simp only [bind, Except.bind, Option.bind, hx, hy, Option.getD_some]
  unfold groupStr groupText
  cases grp x y e.2 <;> rfl

theorem nodeAttrRepr_eq {pat item : Attrs} {e : String × Nat} (h : e.1 ≠ "lid") : nodeAttrRepr grp pat item e = attrRepr grp pat item e := by
  unfold nodeAttrRepr attrRepr
  simp only [if_neg h]

theorem nodeRepr_eq (C : Complete m mt) {v : Nat} (hv : v ∈ m.graph.nodes.keys) : nodeRepr grp m mt v = .ok (nodeText grp m mt v) := by
  obtain ⟨pat, item, hp, hi, ha⟩ := C.nodes v hv
  unfold nodeRepr nodeText
  rw [getD_ok hi, getD_ok hp]
  simp only [bind, Except.bind, hp, hi]
  rw [mapM_ok _ (fun e => groupText grp (valueOf (some pat) e.1) (valueOf (some item) e.1) e.2)]
  intro e he
  have := ha e.1 (by unfold Dict.keys; exact List.mem_map_of_mem he)
  rw [nodeAttrRepr_eq this.2.2]
  exact attrRepr_eq this.1 this.2.1

/-- **C42** is false for formats that show line numbers: no such feature can be made of any match (line numbers are no strings). -/
theorem C42_false_line {v : Nat} {pat item : Attrs} {re l : String} (hp : m.graph.nodes.get? v = some pat) (hi : mt.nodes.get? v = some item)
    (hre : pat.get? "lid" = some re) (hl : item.get? "lid" = some l) (hall : ∀ a ∈ m.featNodeAttrs.keys, a ∈ pat.keys ∧ a ∈ item.keys)
    (ha : "lid" ∈ m.featNodeAttrs.keys) : nodeRepr grp m mt v = .error .typeError := by
  have hmap : ∀ at_ : Dict String Nat, (∀ a ∈ Dict.keys at_, a ∈ pat.keys ∧ a ∈ item.keys) → "lid" ∈ Dict.keys at_ →
      at_.mapM (nodeAttrRepr grp pat item) = .error .typeError := by
    intro at_ h1 h2
    induction at_ with
    | nil => cases h2
    | cons e at_ ih =>
      rw [List.mapM_cons]
      by_cases he : e.1 = "lid"
      · have : nodeAttrRepr grp pat item e = .error .typeError := by
          unfold nodeAttrRepr
          rw [he, getD_ok hre, getD_ok hl]
          rfl
        rw [this]; rfl
      · have h := h1 e.1 (by rw [Dict.keys_cons]; exact List.mem_cons_self ..)
        rw [nodeAttrRepr_eq he, attrRepr_eq h.1 h.2]
        rw [Dict.keys_cons] at h2
        have := ih (fun a ha => h1 a (by rw [Dict.keys_cons]; exact List.mem_cons_of_mem _ ha)) ((List.mem_cons.1 h2).resolve_left (fun e' => he e'.symm))
        simp only [bind, Except.bind]
        rw [this]
  unfold nodeRepr
  rw [getD_ok hi, getD_ok hp]
  show (m.featNodeAttrs.mapM (nodeAttrRepr grp pat item) >>= _) = _
  rw [hmap m.featNodeAttrs hall ha]
  rfl

theorem edgeRepr_eq (C : Complete m mt) {e : Nat × Nat} (he : e ∈ m.graph.edges.keys) : edgeRepr grp m mt e = .ok (edgeText grp m mt e) := by
  obtain ⟨pat, item, hp, hi, ha⟩ := C.edges e he
  unfold edgeRepr edgeText
  rw [getD_ok hi, getD_ok hp]
  simp only [bind, Except.bind, hp, hi]
  rw [mapM_ok _ (fun e => groupText grp (valueOf (some pat) e.1) (valueOf (some item) e.1) e.2)]
  intro e he
  have := ha e.1 (by unfold Dict.keys; exact List.mem_map_of_mem he)
  exact attrRepr_eq this.1 this.2

variable (grp m mt) in
/-- The label as the code makes it: among several dependents, the relation of the target is cut at its first colon. -/
def codeLab (u v : Nat) : String :=
  if v = m.targetIdx then
    (if m.graph.outDeg u ≤ 1 then colon (edgeText grp m mt (u, v)) "#T#"
     else colon (firstPart (edgeText grp m mt (u, v))) "#T#")
  else colon (edgeText grp m mt (u, v)) (nodeText grp m mt v)

theorem firstPart_colon (a b : String) : firstPart (colon a b) = firstPart a := by
  unfold firstPart colon
  congr 1
  rw [String.toList_append, String.toList_append]
  have : (":" : String).toList = [':'] := rfl
  rw [this]
  generalize a.toList = l
  induction l with
  | nil => rfl
  | cons c l ih =>
    rw [List.cons_append, List.cons_append]
    by_cases hc : c = ':'
    · subst hc; simp
    · rw [List.takeWhile_cons_of_pos (by simpa using hc), List.takeWhile_cons_of_pos (by simpa using hc), ih]

theorem many_shape {α : Type} (l : List α) (h : 2 ≤ l.length) (P : List α → Prop)
    (hp : ∀ a b t, P (a :: b :: t)) : P l := by
  match l, h with
  | a :: b :: t, _ => exact hp a b t

theorem preorder_shows {r : Nat} (T : RootedTree m.graph r) (C : Complete m mt) (n : Nat) :
    ∀ v i, v ∈ levels m.graph r i → m.graph.nodes.length < n + i →
      ∃ l str, preorder grp m mt n v = .ok str ∧ Shows m.graph (codeLab grp m mt) v l str := by
  induction n with
  | zero => intro v i hv hlt; have := T.level_lt hv; omega
  | succ n ih =>
    intro v i hv hlt
    unfold preorder
    cases hs : m.graph.succ v with
    | nil =>
      refine ⟨[], "", rfl, .leaf (fun w hw => ?_)⟩
      have := mem_succ.2 hw
      rw [hs] at this
      cases this
    | cons w ws =>
      cases ws with
      | nil =>
        have hedge : ∀ w', HasEdge m.graph v w' ↔ w' = w := by
          intro w'; rw [← mem_succ, hs, List.mem_singleton]
        have hvw := (hedge w).2 rfl
        obtain ⟨l, str, h1, h2⟩ := ih w (i + 1) (mem_levels_succ.2 ⟨v, hv, hvw⟩) (by omega)
        refine ⟨w :: l, "->" ++ codeLab grp m mt v w ++ str, ?_, .one hedge h2⟩
        simp only
        unfold shownOne
        rw [edgeRepr_eq C hvw, nodeRepr_eq C (T.ends _ _ hvw).2, h1]
        simp only [bind, Except.bind]
        have : m.graph.outDeg v ≤ 1 := by unfold DG.outDeg; rw [hs]; simp
        unfold codeLab
        simp only [this, if_true]
      | cons w2 ws =>
        simp only
        rw [← hs]
        have hlen : 2 ≤ (m.graph.succ v).length := by rw [hs]; simp
        have hdeg : ¬ m.graph.outDeg v ≤ 1 := by unfold DG.outDeg; omega
        have hsub : ∀ w ∈ m.graph.succ v, ∃ l str, preorder grp m mt n w = .ok str ∧ Shows m.graph (codeLab grp m mt) w l str := by
          intro w hw
          exact ih w (i + 1) (mem_levels_succ.2 ⟨v, hv, mem_succ.1 hw⟩) (by omega)
        choose! L S hLS using hsub
        have h1 : (m.graph.succ v).mapM (succRepr grp m mt v) =
            .ok ((m.graph.succ v).map (fun w => (w, colon (edgeText grp m mt (v, w)) (nodeText grp m mt w)))) := by
          apply mapM_ok
          intro w hw
          have hw' := mem_succ.1 hw
          unfold succRepr
          rw [edgeRepr_eq C hw', nodeRepr_eq C (T.ends _ _ hw').2]
          rfl
        rw [h1]
        simp only [bind, Except.bind]
        set srt := sortedBy (fun e : Nat × String => e.2)
          ((m.graph.succ v).map (fun w => (w, colon (edgeText grp m mt (v, w)) (nodeText grp m mt w)))) with hsrt
        have hperm : srt.Perm ((m.graph.succ v).map (fun w => (w, colon (edgeText grp m mt (v, w)) (nodeText grp m mt w)))) :=
          sortedBy_perm _ _
        have hmem : ∀ e ∈ srt, e.1 ∈ m.graph.succ v ∧ e.2 = colon (edgeText grp m mt (v, e.1)) (nodeText grp m mt e.1) := by
          intro e he
          obtain ⟨w, hw, rfl⟩ := List.mem_map.1 (hperm.mem_iff.1 he)
          exact ⟨hw, rfl⟩
        have h2 : srt.mapM (fun e => addRest m e (preorder grp m mt n e.1)) =
            .ok (srt.map (fun e => codeLab grp m mt v e.1 ++ S e.1)) := by
          apply mapM_ok
          intro e he
          obtain ⟨hes, hee⟩ := hmem e he
          rw [(hLS e.1 hes).1]
          unfold addRest
          simp only
          congr 2
          unfold shown codeLab
          by_cases ht : e.1 = m.targetIdx
          · rw [if_pos ht, if_pos ht, if_neg hdeg, hee, firstPart_colon]
          · rw [if_neg ht, if_neg ht]; exact hee
        rw [h2]
        have hfst : (srt.map (fun e => (e.1, L e.1, S e.1))).map (fun e => e.1) = srt.map (fun e => e.1) := by
          rw [List.map_map]; rfl
        have hp1 : (srt.map (fun e => e.1)).Perm (m.graph.succ v) := by
          have := hperm.map (fun e : Nat × String => e.1)
          rwa [List.map_map, show ((fun e : Nat × String => e.1) ∘ fun w => (w, colon (edgeText grp m mt (v, w)) (nodeText grp m mt w))) = id from rfl,
            List.map_id] at this
        refine ⟨(srt.map (fun e => (e.1, L e.1, S e.1))).flatMap (fun e => e.1 :: e.2.1),
          "->[" ++ ",".intercalate ((srt.map (fun e => (e.1, L e.1, S e.1))).map (fun e => codeLab grp m mt v e.1 ++ e.2.2)) ++ "]", ?_, ?_⟩
        · rw [List.map_map]
          rfl
        · refine .many _ ?_ ?_ ?_ ?_
          · rw [List.length_map, hperm.length_eq, List.length_map]; exact hlen
          · rw [hfst]
            exact hp1.nodup_iff.2 (succ_nodup T.edgesWF v)
          · intro w
            rw [hfst, hp1.mem_iff, mem_succ]
          · intro e he
            obtain ⟨e', he', rfl⟩ := List.mem_map.1 he
            exact (hLS e'.1 (hmem e' he').1).2

/-- What a feature string shows: exactly the nodes that depend on `v`, directly or not. -/
theorem shows_mem {p : Graph} {lab : Nat → Nat → String} {v : Nat} {l : List Nat} {str : String} (h : Shows p lab v l str) :
    ∀ x, x ∈ v :: l ↔ Relation.ReflTransGen (HasEdge p) v x := by
  induction h with
  | leaf hno =>
    intro x
    rw [List.mem_singleton]
    constructor
    · rintro rfl; exact .refl
    · intro hr
      rcases Relation.ReflTransGen.cases_head hr with h | ⟨w, hw, _⟩
      · exact h.symm
      · exact absurd hw (hno w)
  | one hedge _ ih =>
    intro x
    rw [List.mem_cons, ih x]
    constructor
    · rintro (rfl | h)
      · exact .refl
      · exact .head ((hedge _).2 rfl) h
    · intro hr
      rcases Relation.ReflTransGen.cases_head hr with h | ⟨w, hw, hwx⟩
      · exact Or.inl h.symm
      · rw [(hedge w).1 hw] at hwx; exact Or.inr hwx
  | many subs _ _ hedge _ ih =>
    intro x
    rw [List.mem_cons, List.mem_flatMap]
    constructor
    · rintro (rfl | ⟨e, he, hx⟩)
      · exact .refl
      · exact .head ((hedge _).2 (List.mem_map_of_mem he)) ((ih e he x).1 hx)
    · intro hr
      rcases Relation.ReflTransGen.cases_head hr with h | ⟨w, hw, hwx⟩
      · exact Or.inl h.symm
      · obtain ⟨e, he, rfl⟩ := List.mem_map.1 ((hedge w).1 hw)
        exact Or.inr ⟨e, he, (ih e he x).2 hwx⟩

theorem reach_level {p : Graph} {r v x i : Nat} (hv : v ∈ levels p r i) (h : Relation.ReflTransGen (HasEdge p) v x) :
    ∃ j, i ≤ j ∧ x ∈ levels p r j ∧ (x = v ∨ i < j) := by
  induction h with
  | refl => exact ⟨i, Nat.le_refl _, hv, Or.inl rfl⟩
  | tail _ hbc ih =>
    obtain ⟨j, hij, hj, _⟩ := ih
    exact ⟨j + 1, by omega, mem_levels_succ.2 ⟨_, hj, hbc⟩, Or.inr (by omega)⟩

theorem same_level_reach {p : Graph} {r v w x i : Nat} (T : RootedTree p r) (hv : v ∈ levels p r i) (hw : w ∈ levels p r i)
    (h1 : Relation.ReflTransGen (HasEdge p) v x) (h2 : Relation.ReflTransGen (HasEdge p) w x) : v = w := by
  have key : ∀ a b, a ∈ levels p r i → b ∈ levels p r i → Relation.ReflTransGen (HasEdge p) a b → b = a := by
    intro a b ha hb hab
    obtain ⟨j, _, hj, h | h⟩ := reach_level ha hab
    · exact h
    · have := T.levels_disjoint hb hj; omega
  have U : Relator.RightUnique (Function.swap (HasEdge p)) := fun _ _ _ ha hb => T.oneHead _ _ _ ha hb
  have g1 := Relation.reflTransGen_swap.2 h1
  have g2 := Relation.reflTransGen_swap.2 h2
  rcases Relation.ReflTransGen.total_of_right_unique U g1 g2 with h | h
  · have := Relation.reflTransGen_swap.1 h
    exact (key w v hw hv this)
  · have := Relation.reflTransGen_swap.1 h
    exact (key v w hv hw this).symm

theorem shows_nodup {p : Graph} {r : Nat} (T : RootedTree p r) {lab : Nat → Nat → String} {v : Nat} {l : List Nat} {str : String}
    (h : Shows p lab v l str) : ∀ i, v ∈ levels p r i → (v :: l).Nodup := by
  have top : ∀ {v w x i : Nat}, v ∈ levels p r i → HasEdge p v w → Relation.ReflTransGen (HasEdge p) w x → x ≠ v := by
    rintro v w x i hv hw hx rfl
    obtain ⟨j, hj, hxj, _⟩ := reach_level (mem_levels_succ.2 ⟨_, hv, hw⟩) hx
    have := T.levels_disjoint hv hxj
    omega
  induction h with
  | leaf => intro i _; simp
  | @one v w l str hedge hsub ih =>
    intro i hv
    have hw := (hedge w).2 rfl
    rw [List.nodup_cons]
    refine ⟨fun hm => ?_, ih (i + 1) (mem_levels_succ.2 ⟨v, hv, hw⟩)⟩
    exact top hv hw ((shows_mem hsub v).1 hm) rfl
  | @many v subs hlen hnd hedge hsub ih =>
    intro i hv
    have hlev : ∀ e ∈ subs, e.1 ∈ levels p r (i + 1) := by
      intro e he
      exact mem_levels_succ.2 ⟨v, hv, (hedge _).2 (List.mem_map_of_mem he)⟩
    rw [List.nodup_cons]
    refine ⟨fun hm => ?_, ?_⟩
    · obtain ⟨e, he, hx⟩ := List.mem_flatMap.1 hm
      exact top hv ((hedge _).2 (List.mem_map_of_mem he)) ((shows_mem (hsub e he) v).1 hx) rfl
    · rw [List.nodup_flatMap]
      refine ⟨fun e he => ih e he (i + 1) (hlev e he), ?_⟩
      refine List.Pairwise.imp_of_mem ?_ (List.pairwise_map.1 hnd)
      intro e f he hf hne x hxe hxf
      exact hne (same_level_reach T (hlev e he) (hlev f hf) ((shows_mem (hsub e he) x).1 hxe) ((shows_mem (hsub f hf) x).1 hxf))

/-- The full feature string of a match shows node 1 and everything that depends on it, each node once. -/
theorem featureFull_shows {r : Nat} (T : RootedTree m.graph r) (h1 : 1 ∈ m.graph.nodes.keys) (C : Complete m mt) :
    ∃ l str, featureFull grp m mt = .ok (hiddenText grp m mt 1 ++ str) ∧ Shows m.graph (codeLab grp m mt) 1 l str ∧
      (1 :: l).Nodup ∧ ∀ x, x ∈ 1 :: l ↔ Relation.ReflTransGen (HasEdge m.graph) 1 x := by
  obtain ⟨i, hi⟩ := T.levels_cover h1
  obtain ⟨l, str, hpre, hsh⟩ := preorder_shows (grp := grp) T C (m.graph.nodes.length + 1) 1 i hi (by omega)
  refine ⟨l, str, ?_, hsh, shows_nodup T hsh i hi, shows_mem hsh⟩
  unfold featureFull hiddenText
  by_cases ht : 1 = m.targetIdx
  · simp only [if_pos ht, bind, Except.bind, if_pos h1, hpre]
  · simp only [if_neg ht, nodeRepr_eq C h1, bind, Except.bind, if_pos h1, hpre]

/-- Labels as the format describes them: relation, colon, word (or `#T#`). -/
def goodLab (grp : String → String → Nat → Option String) (m : Macro) (mt : Match) (u v : Nat) : String :=
  edgeText grp m mt (u, v) ++ ":" ++ hiddenText grp m mt v

/-- The text has no colon. -/
def NoColon (s : String) : Prop := ':' ∉ s.toList

theorem firstPart_noColon {s : String} (h : NoColon s) : firstPart s = s := by
  unfold firstPart
  have : s.toList.takeWhile (· ≠ ':') = s.toList := by
    unfold NoColon at h
    generalize s.toList = l at h
    induction l with
    | nil => rfl
    | cons c l ih =>
      rw [List.mem_cons, not_or] at h
      rw [List.takeWhile_cons_of_pos (by simpa using Ne.symm h.1), ih h.2]
  rw [this, String.ofList_toList]

/-- Labels may be changed where they agree. -/
theorem shows_congr {p : Graph} {lab lab' : Nat → Nat → String} (h : ∀ u v, HasEdge p u v → lab u v = lab' u v) {v : Nat} {l : List Nat}
    {str : String} (hs : Shows p lab v l str) : Shows p lab' v l str := by
  induction hs with
  | leaf hno => exact .leaf hno
  | @one v w l str hedge _ ih =>
    rw [h v w ((hedge w).2 rfl)]
    exact .one hedge ih
  | @many v subs hlen hnd hedge _ ih =>
    have : subs.map (fun e => lab v e.1 ++ e.2.2) = subs.map (fun e => lab' v e.1 ++ e.2.2) := by
      refine List.map_congr_left ?_
      intro e he
      rw [h v e.1 ((hedge _).2 (List.mem_map_of_mem he))]
    rw [this]
    exact .many subs hlen hnd hedge ih

/-- Where the code shows the relation in full. -/
theorem codeLab_good {r : Nat} (T : RootedTree m.graph r)
    (hcol : ∀ u, HasEdge m.graph u m.targetIdx → NoColon (edgeText grp m mt (u, m.targetIdx)) ∨ ∀ w, HasEdge m.graph u w → w = m.targetIdx)
    {u v : Nat} (huv : HasEdge m.graph u v) : codeLab grp m mt u v = goodLab grp m mt u v := by
  unfold codeLab goodLab hiddenText colon
  by_cases hv : v = m.targetIdx
  · simp only [if_pos hv]
    subst hv
    rcases hcol u huv with h | h
    · rw [firstPart_noColon h]; simp
    · have : m.graph.outDeg u ≤ 1 := by
        unfold DG.outDeg
        have hsub : m.graph.succ u ⊆ [m.targetIdx] := by
          intro w hw
          rw [List.mem_singleton]
          exact h w (mem_succ.1 hw)
        exact (List.subperm_of_subset (succ_nodup T.edgesWF u) hsub).length_le
      rw [if_pos this]
  · simp only [if_neg hv]

/-- **C42** (pattern with root 1): the full feature string of a match shows every pattern node exactly once, the target as
`#T#`, each with the relation that leads to it.  Missing for the full claim: patterns where node 1 is not the root, see
`C42_false_root`; the relation of the target is shown in full if it has no colon or is an only dependent, see
`C66_false_colon`. -/
theorem C42_partial (T : RootedTree m.graph 1) (C : Complete m mt)
    (hcol : ∀ u, HasEdge m.graph u m.targetIdx → NoColon (edgeText grp m mt (u, m.targetIdx)) ∨ ∀ w, HasEdge m.graph u w → w = m.targetIdx) :
    ∃ l str, featureFull grp m mt = .ok (hiddenText grp m mt 1 ++ str) ∧ Shows m.graph (goodLab grp m mt) 1 l str ∧
      (1 :: l).Perm m.graph.nodes.keys := by
  obtain ⟨l, str, h1, h2, h3, h4⟩ := featureFull_shows (grp := grp) T T.root C
  refine ⟨l, str, h1, shows_congr ?_ h2, ?_⟩
  · exact fun u v => codeLab_good T hcol
  · refine (List.perm_ext_iff_of_nodup h3 T.nodesWF).2 ?_
    intro x
    rw [h4 x]
    constructor
    · intro hx
      induction hx with
      | refl => exact T.root
      | tail _ hbc => exact (T.ends _ _ hbc).2
    · exact T.reach x

/-- **C42** is false when node 1 is not the root of the pattern: the feature string never shows the root. -/
theorem C42_false_root {r : Nat} (T : RootedTree m.graph r) (h1 : 1 ∈ m.graph.nodes.keys) (hr : r ≠ 1) (C : Complete m mt) :
    ∃ l str, featureFull grp m mt = .ok (hiddenText grp m mt 1 ++ str) ∧ Shows m.graph (codeLab grp m mt) 1 l str ∧
      r ∈ m.graph.nodes.keys ∧ r ∉ 1 :: l := by
  obtain ⟨l, str, h1', h2, h3, h4⟩ := featureFull_shows (grp := grp) T h1 C
  refine ⟨l, str, h1', h2, T.root, fun hm => ?_⟩
  rcases Relation.ReflTransGen.cases_tail ((h4 r).1 hm) with h | ⟨w, _, hw⟩
  · exact hr h
  · exact T.rootTop w hw

end

end Verif.Dep
