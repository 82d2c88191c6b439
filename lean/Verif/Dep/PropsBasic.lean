import Verif.Dep.Basic
import Verif.Dep.PropsMatch
import Verif.Dep.PropsRecord
import Verif.Dep.PropsMacros

set_option linter.unusedSectionVars false

/-!
# C150: the older matcher finds the same matches as the current one
-/

namespace Verif.Dep.Basic
open Verif.Py Verif.Dep

/-! ## Specification -/

/-- The attributes of a node with a label or without one, for the current matcher. -/
def embN : Option String → Attrs
  | none => []
  | some l => [("label", l)]

/-- A labelled graph as a graph with the attributes `label` and `rel`. -/
def emb (g : LGraph) : Graph := ⟨g.nodes.map (fun e => (e.1, embN e.2)), g.edges.map (fun e => (e.1, [("rel", e.2)]))⟩

/-- A match: every node of the pattern is mapped to a word whose label matches, edges are mapped to edges whose relations match, the
dependents of one node to different words. -/
structure LFits (rx : String → String → Bool) (s f : LGraph) (φ : Nat → Option Nat) : Prop where
  dom : ∀ x, (φ x).isSome ↔ x ∈ f.nodes.keys
  node : ∀ x y re, φ x = some y → f.nodes.get? x = some (some re) → ∃ l, s.nodes.get? y = some (some l) ∧ rx re l = true
  edge : ∀ x x' y y' re, f.edges.get? (x, x') = some re → φ x = some y → φ x' = some y' →
    ∃ r, s.edges.get? (y, y') = some r ∧ rx re r = true
  siblings : ∀ x y z b, HasEdge f x y → HasEdge f x z → φ y = some b → φ z = some b → y = z

/-- The record of a match: the labels of the words and the relations between them. -/
structure LRecords (s f : LGraph) (φ : Nat → Option Nat) (rec : Found) : Prop where
  nodeDom : ∀ x, x ∈ rec.nodes.keys ↔ (φ x).isSome
  edgeDom : ∀ e, e ∈ rec.edges.keys ↔ e ∈ f.edges.keys
  nodes : ∀ x y, φ x = some y → s.nodes.get? y = some (rec.nodes.get? x)
  edges : ∀ x x' y y', (x, x') ∈ f.edges.keys → φ x = some y → φ x' = some y' → rec.edges.get? (x, x') = s.edges.get? (y, y')

/-- What the graph of a sentence is like: every word that depends on something has a label. -/
structure Worded (s : LGraph) : Prop where
  nodesWF : s.nodes.WF
  edgesWF : s.edges.WF
  ends : ∀ u v, HasEdge s u v → u ∈ s.nodes.keys ∧ v ∈ s.nodes.keys
  labels : ∀ u v, HasEdge s u v → ∃ l, s.nodes.get? v = some (some l)

/-- All nodes of a template are labelled. -/
def Labelled (f : LGraph) : Prop := ∀ x ∈ f.nodes.keys, ∃ l, f.nodes.get? x = some (some l)

/-! ## The embedding -/

theorem get?_map {κ ν μ : Type} [DecidableEq κ] (d : Dict κ ν) (h : ν → μ) (k : κ) :
    Dict.get? (d.map (fun e => (e.1, h e.2))) k = (Dict.get? d k).map h := by
  induction d with
  | nil => rfl
  | cons e d ih =>
    obtain ⟨a, b⟩ := e
    rw [List.map_cons, Dict.get?_cons, Dict.get?_cons, ih]
    split <;> rfl

theorem keys_map {κ ν μ : Type} [DecidableEq κ] (d : Dict κ ν) (h : ν → μ) : Dict.keys (d.map (fun e => (e.1, h e.2))) = Dict.keys d := by
  unfold Dict.keys
  rw [List.map_map]
  rfl

theorem emb_node (g : LGraph) (v : Nat) : (emb g).nodes.get? v = (g.nodes.get? v).map embN := get?_map g.nodes embN v

theorem emb_edge (g : LGraph) (e : Nat × Nat) : (emb g).edges.get? e = (g.edges.get? e).map (fun r => [("rel", r)]) :=
  get?_map g.edges (fun r => [("rel", r)]) e

theorem emb_nodeKeys (g : LGraph) : (emb g).nodes.keys = g.nodes.keys := keys_map g.nodes embN

theorem emb_edgeKeys (g : LGraph) : (emb g).edges.keys = g.edges.keys := keys_map g.edges (fun r => [("rel", r)])

theorem emb_hasEdge (g : LGraph) (u v : Nat) : HasEdge (emb g) u v ↔ HasEdge g u v := by
  unfold HasEdge; rw [emb_edgeKeys]

theorem emb_succ (g : LGraph) (u : Nat) : (emb g).succ u = g.succ u := by
  unfold DG.succ emb
  simp only [List.filter_map, List.map_map]
  rfl

theorem emb_pred (g : LGraph) (u : Nat) : (emb g).pred u = g.pred u := by
  unfold DG.pred emb
  simp only [List.filter_map, List.map_map]
  rfl

theorem emb_outDeg (g : LGraph) (u : Nat) : (emb g).outDeg u = g.outDeg u := by unfold DG.outDeg; rw [emb_succ]

theorem emb_length (g : LGraph) : (emb g).nodes.length = g.nodes.length := by unfold emb; simp

theorem emb_rootWalk (g : LGraph) (n v : Nat) : rootWalk (emb g) n v = rootWalk g n v := by
  induction n generalizing v with
  | zero => rfl
  | succ n ih =>
    rw [rootWalk, rootWalk, emb_pred]
    split
    · rfl
    · exact ih _

theorem emb_getRoot (g : LGraph) : getRoot (emb g) = getRoot g := by
  unfold getRoot; rw [emb_nodeKeys, emb_length, emb_rootWalk]

theorem emb_depthWalk (g : LGraph) (n v : Nat) : depthWalk (emb g) n v = depthWalk g n v := by
  induction n generalizing v with
  | zero => rfl
  | succ n ih =>
    rw [depthWalk, depthWalk, emb_pred]
    split
    · rfl
    · rw [ih]

theorem emb_getDepth (g : LGraph) : getDepth (emb g) = getDepth g := by
  unfold getDepth
  rw [emb_nodeKeys]
  have : depthStep (emb g) = depthStep g := by
    funext m v
    unfold depthStep
    rw [emb_outDeg, emb_length, emb_depthWalk]
  rw [this]

theorem emb_tree {g : LGraph} {r : Nat} (T : RootedTree g r) : RootedTree (emb g) r := by
  have hE : HasEdge (emb g) = HasEdge g := by funext u v; exact propext (emb_hasEdge g u v)
  refine ⟨?_, ?_, ?_, ?_, ?_, ?_, ?_⟩
  · have := T.nodesWF; unfold Dict.WF at this ⊢; rwa [emb_nodeKeys]
  · have := T.edgesWF; unfold Dict.WF at this ⊢; rwa [emb_edgeKeys]
  · rw [hE, emb_nodeKeys]; exact T.ends
  · rw [emb_nodeKeys]; exact T.root
  · rw [hE]; exact T.rootTop
  · rw [hE]; exact T.oneHead
  · rw [hE, emb_nodeKeys]; exact T.reach

/-! ## Agreement -/

section
variable {rx : String → String → Bool} {s f : LGraph}

theorem matchNode_emb {y : Nat} {re l : String} (h : f.nodes.get? y = some (some re)) :
    matchNode rx f l y = Dep.matchNode rx (emb f) (embN (some l)) y := by
  unfold matchNode Dep.matchNode label
  rw [emb_node, h, if_neg (by simp [embN])]
  simp only [Option.map_some, embN, matchNodeAttrs, matchNodeLoop]
  cases hb : rx re l <;> simp [Dict.get?, hb, bind, Except.bind]

theorem matchEdge_emb {e : Nat × Nat} {re r : String} (h : f.edges.get? e = some re) :
    matchEdge rx f r e = Dep.matchEdge rx (emb f) [("rel", r)] e := by
  unfold matchEdge Dep.matchEdge rel
  rw [emb_edge, h]
  simp only [Option.map_some, matchAttrs, matchLoop]
  cases hb : rx re r <;> simp [Dict.get?, hb, bind, Except.bind]

variable (W : Worded s) (L : Labelled f) (E : ∀ u v, HasEdge f u v → u ∈ f.nodes.keys ∧ v ∈ f.nodes.keys)
include W L E

theorem cands_emb {a x y : Nat} (one : Dict Nat Nat) (hxy : HasEdge f x y) (l : List Nat) (hl : ∀ b ∈ l, HasEdge s a b) :
    cands rx s f a x y one l = Dep.cands rx (emb s) (emb f) a x y one l := by
  induction l with
  | nil => rfl
  | cons b l ih =>
    have hb := hl b (by simp)
    obtain ⟨lb, hlb⟩ := W.labels a b hb
    obtain ⟨re, hre⟩ := L y (E x y hxy).2
    obtain ⟨rr, hrr⟩ := Option.isSome_iff_exists.1 ((Dict.get?_isSome_iff s.edges (a, b)).2 hb)
    obtain ⟨rf, hrf⟩ := Option.isSome_iff_exists.1 ((Dict.get?_isSome_iff f.edges (x, y)).2 hxy)
    rw [cands, Dep.cands, ih (fun c hc => hl c (by simp [hc])), emb_node, emb_edge, hlb, hrr]
    simp only [Option.map_some]
    rw [← matchNode_emb hre, ← matchEdge_emb hrf]
    unfold label rel
    rw [hlb, hrr]
    rfl

theorem extendOne_emb {a x y : Nat} (hxy : HasEdge f x y) (one : Dict Nat Nat) :
    extendOne rx s f a x y one = Dep.extendOne rx (emb s) (emb f) a x y one := by
  unfold extendOne Dep.extendOne
  rw [emb_succ, cands_emb W L E one hxy _ (fun b hb => mem_succ.1 hb)]

theorem foldlM_emb {a x : Nat} (ys : List Nat) (h : ∀ y ∈ ys, HasEdge f x y) (M : List (Dict Nat Nat)) :
    ys.foldlM (succStep rx s f a x) M = ys.foldlM (Dep.succStep rx (emb s) (emb f) a x) M := by
  induction ys generalizing M with
  | nil => rfl
  | cons y ys ih =>
    rw [List.foldlM_cons, List.foldlM_cons]
    have e : succStep rx s f a x M y = Dep.succStep rx (emb s) (emb f) a x M y := by
      unfold succStep Dep.succStep
      rw [funext (extendOne_emb W L E (h y (by simp)))]
    rw [e]
    congr 1
    funext M'
    exact ih (fun z hz => h z (by simp [hz])) M'

theorem matchSuccessors_emb (a x : Nat) : matchSuccessors rx s a f x = Dep.matchSuccessors rx (emb s) a (emb f) x := by
  unfold matchSuccessors Dep.matchSuccessors
  rw [emb_outDeg, emb_succ, foldlM_emb W L E _ (fun y hy => mem_succ.1 hy)]

theorem matchLevelGo_emb (l : List (Nat × Nat)) (M : List (Dict Nat Nat)) :
    matchLevelGo rx s f l M = Dep.matchLevelGo rx (emb s) (emb f) l M := by
  induction l generalizing M with
  | nil => rfl
  | cons e l ih =>
    obtain ⟨fn, sn⟩ := e
    rw [matchLevelGo, Dep.matchLevelGo, emb_outDeg, matchSuccessors_emb W L E, ih]
    split
    · rfl
    · congr 1
      funext sm
      rw [ih]

theorem nextLevel_emb : nextLevel rx s f = Dep.nextLevel rx (emb s) (emb f) := by
  funext l
  unfold nextLevel Dep.nextLevel matchLevel Dep.matchLevel
  cases l.getLast? with
  | none => rfl
  | some c =>
    simp only
    rw [matchLevelGo_emb W L E]
    cases Dep.matchLevelGo rx (emb s) (emb f) c [[]] with
    | error e => rfl
    | ok o => cases o <;> rfl

theorem subtree_emb (d n : Nat) (l : List (List (Dict Nat Nat))) : subtree rx s f d n l = Dep.subtree rx (emb s) (emb f) d n l := by
  induction n generalizing l with
  | zero => rfl
  | succ n ih =>
    unfold subtree Dep.subtree
    rw [nextLevel_emb W L E]
    cases l with
    | nil => rfl
    | cons a l =>
      simp only
      split
      · rfl
      · congr 1
        funext parts
        exact ih _

/-- The matches from one node. -/
theorem matchFrom_emb {d r : Nat} {re : String} (hr : f.nodes.get? r = some (some re)) (v : Nat) (o : Option String)
    (ho : o = none → rx re "ROOT" = false) :
    matchFrom rx s f d r (v, o) = (Dep.matchFrom rx (emb s) (emb f) d r (v, embN o)).bind (fun ms => ms.mapM (record s f)) := by
  cases o with
  | none =>
    unfold matchFrom Dep.matchFrom matchNode Dep.matchNode label
    rw [hr]
    simp only [Option.getD_none, embN, bind, Except.bind, ho rfl]
    rfl
  | some l =>
    unfold matchFrom Dep.matchFrom
    simp only [Option.getD_some]
    rw [matchNode_emb hr, subtree_emb W L E]
    cases hm : Dep.matchNode rx (emb f) (embN (some l)) r with
    | error e => rfl
    | ok b =>
      cases b with
      | false => rfl
      | true =>
        simp only [bind, Except.bind]
        cases Dep.subtree rx (emb s) (emb f) d (d + 1) [[[(r, v)]]] <;> rfl

theorem emb_ready : Ready (emb s) (emb f) := by
  refine ⟨?_, ?_, ?_, ?_, ?_, ?_, ?_, ?_⟩
  · have := W.nodesWF; unfold Dict.WF at this ⊢; rwa [emb_nodeKeys]
  · have := W.edgesWF; unfold Dict.WF at this ⊢; rwa [emb_edgeKeys]
  · intro u v h
    rw [emb_nodeKeys]
    exact W.ends u v ((emb_hasEdge s u v).1 h)
  · intro x pat y item hp hs hne a ha
    rw [emb_node] at hp hs
    obtain ⟨o, ho, rfl⟩ := Option.map_eq_some_iff.1 hp
    obtain ⟨o', ho', rfl⟩ := Option.map_eq_some_iff.1 hs
    cases o' with
    | none => exact absurd rfl hne
    | some l' =>
      cases o with
      | none => cases ha
      | some l => exact ha
  · intro x pat y item hp hs a ha
    rw [emb_edge] at hp hs
    obtain ⟨o, ho, rfl⟩ := Option.map_eq_some_iff.1 hp
    obtain ⟨o', ho', rfl⟩ := Option.map_eq_some_iff.1 hs
    exact ha
  · intro x pat hp
    rw [emb_node] at hp
    obtain ⟨o, ho, rfl⟩ := Option.map_eq_some_iff.1 hp
    obtain ⟨l, hl⟩ := L x ((Dict.get?_isSome_iff f.nodes x).1 (by rw [ho]; rfl))
    rw [hl] at ho
    cases ho
    simp [embN]
  · intro x pat hp
    rw [emb_edge] at hp
    obtain ⟨o, ho, rfl⟩ := Option.map_eq_some_iff.1 hp
    simp
  · intro x pat hp a ha
    rw [emb_node] at hp
    obtain ⟨o, ho, rfl⟩ := Option.map_eq_some_iff.1 hp
    cases o with
    | none => cases ha
    | some l =>
      have ha : a ∈ ["label"] := ha
      rw [List.mem_singleton.1 ha]
      decide

omit W E in
theorem fits_emb {φ : Nat → Option Nat} : Fits rx (emb s) (emb f) φ ↔ LFits rx s f φ := by
  have one : ∀ (a re : String) (item : Attrs), Satisfies rx [(a, re)] item ↔ ∃ v, item.get? a = some v ∧ rx re v = true := by
    intro a re item
    constructor
    · intro h; exact h a re (by simp)
    · rintro h b re' hm
      obtain ⟨rfl, rfl⟩ := Prod.mk.inj (List.mem_singleton.1 hm)
      exact h
  constructor
  · intro F
    refine ⟨fun x => by rw [F.dom, emb_nodeKeys], ?_, ?_, ?_⟩
    · intro x y re hx hre
      obtain ⟨item, hi, hs⟩ := F.node x y _ hx (by rw [emb_node, hre]; rfl)
      rw [emb_node] at hi
      obtain ⟨o, ho, rfl⟩ := Option.map_eq_some_iff.1 hi
      obtain ⟨v, hv, hr⟩ := (one _ _ _).1 hs
      cases o with
      | none => cases hv
      | some l =>
        have : v = l := by simpa [embN, Dict.get?] using hv.symm
        subst this
        exact ⟨v, ho, hr⟩
    · intro x x' y y' re he hx hx'
      obtain ⟨item, hi, hs⟩ := F.edge x x' y y' _ (by rw [emb_edge, he]; rfl) hx hx'
      rw [emb_edge] at hi
      obtain ⟨o, ho, rfl⟩ := Option.map_eq_some_iff.1 hi
      obtain ⟨v, hv, hr⟩ := (one _ _ _).1 hs
      have : v = o := by simpa [Dict.get?] using hv.symm
      subst this
      exact ⟨v, ho, hr⟩
    · intro x y z b hy hz
      exact F.siblings x y z b ((emb_hasEdge f x y).2 hy) ((emb_hasEdge f x z).2 hz)
  · intro F
    refine ⟨fun x => by rw [F.dom, emb_nodeKeys], ?_, ?_, ?_⟩
    · intro x y pat hx hp
      rw [emb_node] at hp
      obtain ⟨o, ho, rfl⟩ := Option.map_eq_some_iff.1 hp
      obtain ⟨re, hre⟩ := L x ((Dict.get?_isSome_iff f.nodes x).1 (by rw [ho]; rfl))
      rw [hre] at ho
      cases ho
      obtain ⟨l, hl, hr⟩ := F.node x y re hx hre
      exact ⟨_, by rw [emb_node, hl]; rfl, (one _ _ _).2 ⟨l, by simp [embN, Dict.get?], hr⟩⟩
    · intro x x' y y' pat hp hx hx'
      rw [emb_edge] at hp
      obtain ⟨re, hre, rfl⟩ := Option.map_eq_some_iff.1 hp
      obtain ⟨r, hr, hm⟩ := F.edge x x' y y' re hre hx hx'
      exact ⟨_, by rw [emb_edge, hr]; rfl, (one _ _ _).2 ⟨r, by simp [Dict.get?], hm⟩⟩
    · intro x y z b hy hz
      exact F.siblings x y z b ((emb_hasEdge f x y).1 hy) ((emb_hasEdge f x z).1 hz)

omit W in
/-- The record of a match. -/
theorem record_eq {d : Dict Nat Nat} (hd : d.WF) (F : LFits rx s f (Dict.get? d)) :
    ∃ rec, record s f d = .ok rec ∧ LRecords s f (Dict.get? d) rec := by
  have hlab : ∀ x y, d.get? x = some y → ∃ l, s.nodes.get? y = some (some l) := by
    intro x y h
    obtain ⟨re, hre⟩ := L x ((F.dom x).1 (by rw [h]; rfl))
    obtain ⟨l, hl, _⟩ := F.node x y re h hre
    exact ⟨l, hl⟩
  have hnodes : d.mapM (nodeLabel s) = .ok (d.map (fun e => (e.1, ((s.nodes.get? e.2).getD none).getD ""))) := by
    apply Dep.mapM_ok
    rintro ⟨x, y⟩ he
    obtain ⟨l, hl⟩ := hlab x y (Dict.get?_of_mem hd he)
    unfold nodeLabel label
    simp only [hl]
    rfl
  have hedge : ∀ x x', (x, x') ∈ f.edges.keys → ∃ y y' r, d.get? x = some y ∧ d.get? x' = some y' ∧ s.edges.get? (y, y') = some r := by
    intro x x' he
    have hxy := E x x' he
    obtain ⟨y, hy⟩ := Option.isSome_iff_exists.1 ((F.dom x).2 hxy.1)
    obtain ⟨y', hy'⟩ := Option.isSome_iff_exists.1 ((F.dom x').2 hxy.2)
    obtain ⟨pat, hp⟩ := Option.isSome_iff_exists.1 ((Dict.get?_isSome_iff f.edges (x, x')).2 he)
    obtain ⟨r, hr, _⟩ := F.edge x x' y y' pat hp hy hy'
    exact ⟨y, y', r, hy, hy', hr⟩
  have hedges : f.edges.keys.mapM (edgeLabel s d) =
      .ok (f.edges.keys.map (fun e => (e, (s.edges.get? ((d.get? e.1).getD 0, (d.get? e.2).getD 0)).getD ""))) := by
    apply Dep.mapM_ok
    rintro ⟨x, x'⟩ he
    obtain ⟨y, y', r, hy, hy', hr⟩ := hedge x x' he
    unfold edgeLabel rel
    rw [getD_ok hy, getD_ok hy']
    simp only [bind, Except.bind, hr, hy, hy', Option.getD_some]
  refine ⟨_, by unfold record; rw [hnodes, hedges]; rfl, ?_, ?_, ?_, ?_⟩
  · intro x
    simp only
    rw [keys_map_val d (fun e => ((s.nodes.get? e.2).getD none).getD ""), Dict.get?_isSome_iff]
  · intro e
    simp only
    rw [keys_graph]
  · intro x y h
    obtain ⟨l, hl⟩ := hlab x y h
    simp only
    rw [get?_map_val d (fun e => ((s.nodes.get? e.2).getD none).getD ""), h, hl]
    simp [hl]
  · intro x x' y y' he hx hx'
    obtain ⟨y1, y1', r, hy, hy', hr⟩ := hedge x x' he
    rw [hx] at hy; cases hy
    rw [hx'] at hy'; cases hy'
    simp only
    rw [get?_graph, if_pos he]
    simp only [hx, hx', Option.getD_some, hr]

omit W L E in
theorem mapM_exists {γ δ : Type} (g : γ → Except Err δ) (P : γ → δ → Prop) (l : List γ) (h : ∀ x ∈ l, ∃ y, g x = .ok y ∧ P x y) :
    ∃ ys, l.mapM g = .ok ys ∧ List.Forall₂ P l ys := by
  induction l with
  | nil => exact ⟨[], rfl, .nil⟩
  | cons x l ih =>
    obtain ⟨ys, hys, hP⟩ := ih (fun z hz => h z (by simp [hz]))
    obtain ⟨y, hy, hp⟩ := h x (by simp)
    exact ⟨y :: ys, by rw [List.mapM_cons, hy, hys]; rfl, .cons hp hP⟩

omit W L E in
theorem mapM_bind {γ δ ε : Type} (g : γ → Except Err (List δ)) (r : δ → Except Err ε) (l : List γ) {P : List (List δ)} {R : List ε}
    (h : l.mapM g = .ok P) (hr : P.flatten.mapM r = .ok R) :
    ∃ Q, l.mapM (fun e => (g e).bind (fun ms => ms.mapM r)) = .ok Q ∧ Q.flatten = R := by
  induction l generalizing P R with
  | nil =>
    cases h
    cases hr
    exact ⟨[], rfl, rfl⟩
  | cons x l ih =>
    rw [List.mapM_cons] at h
    obtain ⟨p, hp, h⟩ := bind_ok h
    obtain ⟨P', hP', h⟩ := bind_ok h
    cases h
    rw [List.flatten_cons, List.mapM_append] at hr
    obtain ⟨R1, h1, hr⟩ := bind_ok hr
    obtain ⟨R2, h2, hr⟩ := bind_ok hr
    cases hr
    obtain ⟨Q, hQ, hR⟩ := ih hP' h2
    refine ⟨R1 :: Q, ?_, by rw [List.flatten_cons, hR]⟩
    rw [List.mapM_cons, hQ, hp]
    simp only [Except.bind, h1]
    rfl

omit W L E in
theorem mapM_map' {γ δ ε : Type} (h : γ → δ) (g : δ → Except Err ε) (l : List γ) : (l.map h).mapM g = l.mapM (fun x => g (h x)) := by
  induction l with
  | nil => rfl
  | cons x l ih => rw [List.map_cons, List.mapM_cons, List.mapM_cons, ih]
end

theorem mapM_congr {γ δ : Type} (g h : γ → Except Err δ) (l : List γ) (e : ∀ x ∈ l, g x = h x) : l.mapM g = l.mapM h := by
  induction l with
  | nil => rfl
  | cons x l ih => rw [List.mapM_cons, List.mapM_cons, e x (by simp), ih (fun z hz => e z (by simp [hz]))]

/-- What both matchers do. -/
theorem matched {rx : String → String → Bool} {tree : LGraph → Bool} {s : LGraph} {f : Feature} (W : Worded s) {r : Nat}
    (T : RootedTree f.graph r) (h1 : 1 ∈ f.graph.nodes.keys) (L : Labelled f.graph) (hdep : getDepth f.graph = .ok f.depth)
    (hs : isTree tree s = true) (hf : isTree tree f.graph = true)
    (hroot : (∀ v ∈ s.nodes.keys, ∃ l, s.nodes.get? v = some (some l)) ∨ ∀ re, f.graph.nodes.get? r = some (some re) → rx re "ROOT" = false) :
    ∃ (maps : List (Dict Nat Nat)) (recs : List Found), Dep.treeMaps rx (emb s) (emb f.graph) f.depth = .ok maps ∧
      maps.mapM (record s f.graph) = .ok recs ∧ (maps.map Dict.get?).Nodup ∧
      (∀ φ, φ ∈ maps.map Dict.get? ↔ LFits rx s f.graph φ) ∧
      treeMatch rx tree s f = .ok { f with found := f.found ++ recs } ∧
      List.Forall₂ (fun d rec => LRecords s f.graph (Dict.get? d) rec) maps recs := by
  have T' := emb_tree T
  have R := emb_ready W L T.ends
  have hd1 : 1 ≤ f.depth := by
    obtain ⟨d', hd', ⟨_, i, _, _, hdi⟩, _⟩ := getDepth_levels T
    rw [hdep] at hd'
    cases hd'
    omega
  have h1' : 1 ∈ (emb f.graph).nodes.keys := by rw [emb_nodeKeys]; exact h1
  obtain ⟨maps, hmaps, hnd, hfit⟩ := C37_partial (rx := rx) R T' h1' (by rw [emb_getDepth]; exact hdep)
  have hwf := treeMaps_wf R T' h1' hd1 hmaps
  obtain ⟨recs, hrecs, hrel⟩ := mapM_exists (record s f.graph) (fun d rec => LRecords s f.graph (Dict.get? d) rec) maps
    (fun d hd => record_eq (rx := rx) L T.ends (hwf d hd) ((fits_emb L).1 ((hfit _).1 (List.mem_map_of_mem hd))))
  refine ⟨maps, recs, hmaps, hrecs, hnd, fun φ => (hfit φ).trans (fits_emb L), ?_, hrel⟩
  · clear hwf
    unfold Dep.treeMaps at hmaps
    rw [emb_getRoot, C41_root T h1] at hmaps
    simp only [bind, Except.bind] at hmaps
    obtain ⟨P, hP, hmaps⟩ := bind_ok hmaps
    cases hmaps
    have e : (emb s).nodes.mapM (Dep.matchFrom rx (emb s) (emb f.graph) f.depth r) =
        s.nodes.mapM (fun e => Dep.matchFrom rx (emb s) (emb f.graph) f.depth r (e.1, embN e.2)) :=
      mapM_map' (fun e : Nat × Option String => (e.1, embN e.2)) _ s.nodes
    rw [e] at hP
    obtain ⟨Q, hQ, hfl⟩ := mapM_bind _ (record s f.graph) s.nodes hP hrecs
    unfold treeMatch
    rw [hs, hf, if_neg (by simp), if_neg (by simp), C41_root T h1]
    simp only [bind, Except.bind]
    obtain ⟨re, hre⟩ := L r T.root
    have e2 : s.nodes.mapM (matchFrom rx s f.graph f.depth r) = .ok Q := by
      rw [← hQ]
      refine Verif.Dep.Basic.mapM_congr _ _ _ ?_
      rintro ⟨v, o⟩ hv
      refine matchFrom_emb W L T.ends hre v o ?_
      rintro rfl
      rcases hroot with h | h
      · obtain ⟨l, hl⟩ := h v ((Dict.get?_isSome_iff s.nodes v).1 (by rw [Dict.get?_of_mem W.nodesWF hv]; rfl))
        rw [Dict.get?_of_mem W.nodesWF hv] at hl
        cases hl
      · exact h re hre
    rw [e2]
    simp only [hfl]

/-- **C150 (partial).**  For sentences and templates which are trees, the older matcher records exactly the matches, each once, with
the labels of the words and the relations between them.  The full claim is false for root conditions that match the word ROOT
(`C150_false_root`), for templates of one node (`C150_false_single`), and sentences that are no trees are not always skipped
(`C150_not_tree`). -/
theorem C150_partial {rx : String → String → Bool} {tree : LGraph → Bool} {s : LGraph} {f : Feature} (W : Worded s) {r : Nat}
    (T : RootedTree f.graph r) (h1 : 1 ∈ f.graph.nodes.keys) (L : Labelled f.graph) (hdep : getDepth f.graph = .ok f.depth)
    (hs : isTree tree s = true) (hf : isTree tree f.graph = true)
    (hroot : (∀ v ∈ s.nodes.keys, ∃ l, s.nodes.get? v = some (some l)) ∨ ∀ re, f.graph.nodes.get? r = some (some re) → rx re "ROOT" = false) :
    ∃ (maps : List (Nat → Option Nat)) (recs : List Found), maps.Nodup ∧ (∀ φ, φ ∈ maps ↔ LFits rx s f.graph φ) ∧
      treeMatch rx tree s f = .ok { f with found := f.found ++ recs } ∧ List.Forall₂ (LRecords s f.graph) maps recs := by
  obtain ⟨maps, recs, _, _, hnd, hfit, h, hrel⟩ := matched W T h1 L hdep hs hf hroot
  refine ⟨maps.map Dict.get?, recs, hnd, hfit, h, ?_⟩
  rw [List.forall₂_map_left_iff]
  exact hrel

/-! ### A sentence and a template -/

/-- "boy eats apple", as `SentenceGraph` reads it: node 0 is only named by an edge. -/
def eatsL : LGraph :=
  ⟨[(1, some "boy/N"), (2, some "eat/V"), (3, some "apple/N"), (0, none)], [((2, 1), "nsubj"), ((0, 2), "root"), ((2, 3), "obj")]⟩

/-- A verb with two nouns. -/
def verbL : LGraph := ⟨[(1, some "V"), (2, some "N"), (3, some "N")], [((1, 2), ".*"), ((1, 3), ".*")]⟩

/-- Regular expressions of the samples: `.*`, a word class, or a literal string. -/
def rxL (re v : String) : Bool := re == ".*" || re == v || (re == "V" && v == "eat/V") || (re == "N" && (v == "boy/N" || v == "apple/N"))

def verbF : Feature := ⟨verbL, 2, 2, []⟩

theorem eatsL_worded : Worded eatsL := by
  have hE : ∀ u v, HasEdge eatsL u v ↔ (u, v) ∈ [((2, 1) : Nat × Nat), (0, 2), (2, 3)] := fun u v => Iff.rfl
  refine ⟨by unfold Dict.WF; decide, by unfold Dict.WF; decide, ?_, ?_⟩
  · intro u v h
    have := (hE u v).1 h
    simp only [List.mem_cons, List.not_mem_nil, or_false] at this
    rcases this with h | h | h <;> cases h <;> decide
  · intro u v h
    have := (hE u v).1 h
    simp only [List.mem_cons, List.not_mem_nil, or_false] at this
    rcases this with h | h | h <;> cases h <;> exact ⟨_, rfl⟩

theorem verbL_edge {u v : Nat} : HasEdge verbL u v ↔ (u, v) = (1, 2) ∨ (u, v) = (1, 3) := by
  unfold HasEdge
  have : verbL.edges.keys = [(1, 2), (1, 3)] := rfl
  rw [this]
  simp

theorem verbL_rooted : RootedTree verbL 1 := by
  have hn : verbL.nodes.keys = [1, 2, 3] := rfl
  refine ⟨by unfold Dict.WF; decide, by unfold Dict.WF; decide, ?_, by decide, ?_, ?_, ?_⟩
  · intro u v h
    rw [verbL_edge] at h
    rw [hn]
    rcases h with h | h <;> cases h <;> decide
  · intro u h
    rw [verbL_edge] at h
    rcases h with h | h <;> cases h
  · intro u u' v h h'
    rw [verbL_edge] at h h'
    rcases h with h | h <;> cases h <;> rcases h' with h' | h' <;> cases h' <;> rfl
  · intro v hv
    rw [hn] at hv
    simp only [List.mem_cons, List.not_mem_nil, or_false] at hv
    rcases hv with rfl | rfl | rfl
    · exact .refl
    · exact .single (verbL_edge.2 (by simp))
    · exact .single (verbL_edge.2 (by simp))

theorem verbL_labelled : Labelled verbL := by
  intro x hx
  have hn : verbL.nodes.keys = [1, 2, 3] := rfl
  rw [hn] at hx
  simp only [List.mem_cons, List.not_mem_nil, or_false] at hx
  rcases hx with rfl | rfl | rfl <;> exact ⟨_, rfl⟩

example : ∃ (maps : List (Nat → Option Nat)) (recs : List Found), maps.Nodup ∧ (∀ φ, φ ∈ maps ↔ LFits rxL eatsL verbL φ) ∧
    treeMatch rxL (fun _ => true) eatsL verbF = .ok { verbF with found := recs } ∧ List.Forall₂ (LRecords eatsL verbL) maps recs :=
  C150_partial (f := verbF) eatsL_worded verbL_rooted (by decide) verbL_labelled rfl rfl rfl
    (.inr (fun re h => by cases h; decide +kernel))

/-- Both orders of the two nouns are recorded. -/
example : treeMatch rxL (fun _ => true) eatsL verbF = .ok { verbF with found :=
    [⟨[(1, "eat/V"), (2, "boy/N"), (3, "apple/N")], [((1, 2), "nsubj"), ((1, 3), "obj")]⟩,
     ⟨[(1, "eat/V"), (2, "apple/N"), (3, "boy/N")], [((1, 2), "obj"), ((1, 3), "nsubj")]⟩] } := by decide +kernel

/-- **C150 is false** for root conditions that match `ROOT`: the node without label, which every sentence has, counts as a word
ROOT, and reading its label for the record is a `KeyError`. -/
theorem C150_false_root : ∃ f : Feature, treeMatch rxL (fun _ => true) eatsL f = .error .keyError ∧
    ∃ re, f.graph.nodes.get? 1 = some (some re) ∧ rxL re "ROOT" = true :=
  ⟨⟨⟨[(1, some ".*"), (2, some "V")], [((1, 2), ".*")]⟩, 2, 2, []⟩, by decide +kernel, ".*", rfl, by decide +kernel⟩

/-- **C150 is false** for templates of one node: they are refused. -/
theorem C150_false_single (rx : String → String → Bool) (tree : LGraph → Bool) (s : LGraph) (hs : isTree tree s = true) (v : Nat)
    (l : Option String) (t d : Nat) (fs : List Found) : treeMatch rx tree s ⟨⟨[(v, l)], []⟩, t, d, fs⟩ = .error .assertionError := by
  unfold treeMatch
  rw [hs, if_neg (by simp)]
  rfl

example : isTree (fun _ => true) eatsL = true := rfl

/-- Sentences that are no trees are skipped if their nodes are numbered without gaps from 0 on; otherwise the text of the log
message is an `IndexError`. -/
theorem C150_not_tree (rx : String → String → Bool) (tree : LGraph → Bool) (s : LGraph) (f : Feature) (hs : isTree tree s = false) :
    ((∀ v ∈ s.nodes.keys, v < s.nodes.length) → treeMatch rx tree s f = .ok f) ∧
    ((∃ v ∈ s.nodes.keys, s.nodes.length ≤ v) → treeMatch rx tree s f = .error .indexError) := by
  constructor
  · intro h
    unfold treeMatch
    rw [hs, if_pos rfl, if_pos]
    unfold reprOk
    rw [List.all_eq_true]
    intro v hv
    exact decide_eq_true (h v hv)
  · rintro ⟨v, hv, hlt⟩
    unfold treeMatch
    rw [hs, if_pos rfl, if_neg]
    unfold reprOk
    rw [List.all_eq_true]
    intro h
    have := of_decide_eq_true (h v hv)
    omega

/-- Two words, numbered 1 and 4, that depend on nothing in the sentence. -/
example : ∃ s : LGraph, isTree (fun g => decide (g.nodes.length = g.edges.length + 1)) s = false ∧ ∃ v ∈ s.nodes.keys, s.nodes.length ≤ v :=
  ⟨⟨[(1, some "a/N"), (4, some "b/N"), (2, none), (3, none)], [((2, 1), "x"), ((3, 4), "y")]⟩, by decide, 4, by decide, by decide⟩

/-- The record of the current matcher. -/
def embFound (a : Found) : Match := ⟨a.nodes.map (fun e => (e.1, [("label", e.2)])), a.edges.map (fun e => (e.1, [("rel", e.2)]))⟩

theorem mapM_then {γ δ ε : Type} (g : γ → Except Err δ) (g' : γ → Except Err ε) (h : δ → ε) (H : ∀ x y, g x = .ok y → g' x = .ok (h y))
    {l : List γ} {ys : List δ} (hy : l.mapM g = .ok ys) : l.mapM g' = .ok (ys.map h) := by
  induction l generalizing ys with
  | nil => cases hy; rfl
  | cons x l ih =>
    rw [List.mapM_cons] at hy
    obtain ⟨y, h1, hy⟩ := bind_ok hy
    obtain ⟨ys', h2, hy⟩ := bind_ok hy
    cases hy
    rw [List.mapM_cons, H x y h1, ih h2]
    rfl

theorem nodeAttrs_emb {s : LGraph} (e : Nat × Nat) (a : Nat × String) (h : nodeLabel s e = .ok a) :
    nodeAttrs (emb s) e = .ok (a.1, [("label", a.2)]) := by
  unfold nodeLabel at h
  obtain ⟨l, hl, h⟩ := bind_ok h
  cases h
  unfold label at hl
  split at hl
  · next l' hg =>
    cases hl
    unfold nodeAttrs
    rw [getD_ok (v := embN (some l)) (by rw [emb_node, hg]; rfl)]
    rfl
  · cases hl

theorem edgeAttrs_emb {s : LGraph} {d : Dict Nat Nat} (e : Nat × Nat) (a : (Nat × Nat) × String) (h : edgeLabel s d e = .ok a) :
    edgeAttrs (emb s) d e = .ok (a.1, [("rel", a.2)]) := by
  unfold edgeLabel at h
  obtain ⟨x, hx, h⟩ := bind_ok h
  obtain ⟨y, hy, h⟩ := bind_ok h
  obtain ⟨l, hl, h⟩ := bind_ok h
  cases h
  unfold rel at hl
  split at hl
  · next l' hg =>
    cases hl
    unfold edgeAttrs
    rw [hx, hy]
    simp only [bind, Except.bind]
    rw [getD_ok (v := [("rel", l)]) (by rw [emb_edge, hg]; rfl)]
  · cases hl

theorem addOne_emb {s f : LGraph} {m : Macro} (hm : m.graph = emb f) (hfil : m.filter = none) {d : Dict Nat Nat} {rec : Found}
    (h : record s f d = .ok rec) : addOne (emb s) none m d = .ok (some (embFound rec)) := by
  unfold record at h
  obtain ⟨ns, hn, h⟩ := bind_ok h
  obtain ⟨es, he, h⟩ := bind_ok h
  cases h
  unfold addOne passes
  rw [mapM_then _ _ _ nodeAttrs_emb hn, hfil, hm, emb_edgeKeys]
  simp only [bind, Except.bind, if_pos]
  rw [mapM_then _ _ _ edgeAttrs_emb he]
  rfl

/-- **C150** (agreement).  The current matcher, for a pattern with the same conditions and no filter, records the same labels and
relations in the same order. -/
theorem C150_agree {rx : String → String → Bool} {tree : LGraph → Bool} {s : LGraph} {f : Feature} (W : Worded s) {r : Nat}
    (T : RootedTree f.graph r) (h1 : 1 ∈ f.graph.nodes.keys) (L : Labelled f.graph) (hdep : getDepth f.graph = .ok f.depth)
    (hs : isTree tree s = true) (hf : isTree tree f.graph = true)
    (hroot : (∀ v ∈ s.nodes.keys, ∃ l, s.nodes.get? v = some (some l)) ∨ ∀ re, f.graph.nodes.get? r = some (some re) → rx re "ROOT" = false)
    {m : Macro} (hm : m.graph = emb f.graph) (hd : m.depth = f.depth) (hfil : m.filter = none) :
    ∃ (recs : List Found) (ms : List Match), treeMatch rx tree s f = .ok { f with found := f.found ++ recs } ∧
      Dep.treeMatch rx true (emb s) none m = .ok { m with found := m.found ++ ms } ∧
      List.Forall₂ (fun (a : Found) (b : Match) => b.nodes = a.nodes.map (fun e => (e.1, [("label", e.2)])) ∧
        b.edges = a.edges.map (fun e => (e.1, [("rel", e.2)]))) recs ms := by
  obtain ⟨maps, recs, hmaps, hrecs, -, -, h, -⟩ := matched W T h1 L hdep hs hf hroot
  refine ⟨recs, recs.map embFound, h, ?_, ?_⟩
  · have e : maps.mapM (addOne (emb s) none m) = .ok (recs.map (fun a => some (embFound a))) :=
      mapM_then _ _ _ (fun d rec hr => addOne_emb hm hfil hr) hrecs
    unfold Dep.treeMatch
    rw [if_pos rfl, hm, hd, hmaps]
    simp only [bind, Except.bind]
    rw [e]
    simp only [List.filterMap_map, Function.comp_def, id]
    rw [List.filterMap_eq_map']
  · rw [List.forall₂_map_right_iff, List.forall₂_same]
    intro a _
    exact ⟨rfl, rfl⟩

end Verif.Dep.Basic
