import Verif.Dep.PropsSentence

set_option linter.unusedSectionVars false

/-!
# C69: sentence graphs represent the lines
-/

namespace Verif.Dep
open Verif.Py

/-! ## Specification -/

/-- A word of a sentence: line number and text, index, index of the head, and the contents of the columns. -/
structure Word where
  lid : Nat
  line : String
  id : Nat
  head : Nat
  val : String → String

/-- The line of `w` has its contents in the columns named by the format. -/
structure WordLine (f : LineFormat) (w : Word) : Prop where
  cols : ∃ g, f.groups w.line = some g ∧ ∀ i c, f.columns[i]? = some c → g[i + 1]? = some (w.val c)
  index : f.toInt (w.val f.currID) = some w.id
  headIndex : f.toInt (w.val f.headID) = some w.head

/-- Settings fit for dependencies: no column is named twice, the columns of the indices exist, at least one column is an
edge attribute, and none of these is called `id`. -/
structure DepSettings (f : LineFormat) (ea : List String) : Prop where
  distinct : f.columns.Nodup
  edgeAttr : f.edgeAttr = some ea
  currID : f.currID ∈ f.columns
  headID : f.headID ∈ f.columns
  edgeCol : ∃ c ∈ f.columns, c ∈ ea ∧ c ∉ f.nodeAttr
  noId : "id" ∈ f.columns → "id" ∈ ea → "id" ∈ f.nodeAttr

/-- Specification of the graph of a sentence: its words with their attributes and line numbers, the edges from heads to
words with their attributes, and heads that are no words as nodes without attributes. -/
structure Represents (f : LineFormat) (ea : List String) (ws : List Word) (g : Graph) : Prop where
  nodesWF : g.nodes.WF
  edgesWF : g.edges.WF
  node : ∀ w ∈ ws, ∃ a, g.nodes.get? w.id = some a ∧ ∀ c, Dict.get? a c =
    if c = "lid" then some (toString w.lid) else if c ∈ f.columns ∧ c ∈ f.nodeAttr then some (w.val c) else none
  edge : ∀ w ∈ ws, ∃ a, g.edges.get? (w.head, w.id) = some a ∧ ∀ c, Dict.get? a c =
    if c ∈ f.columns ∧ c ∈ ea ∧ c ∉ f.nodeAttr then some (w.val c) else none
  edgeIff : ∀ u v, HasEdge g u v ↔ ∃ w ∈ ws, u = w.head ∧ v = w.id
  nodeIff : ∀ x, x ∈ g.nodes.keys ↔ ∃ w ∈ ws, x = w.id ∨ x = w.head
  bare : ∀ x a, g.nodes.get? x = some a → (∀ w ∈ ws, x ≠ w.id) → a = []

/-! ## Proofs -/

theorem colFold_not_mem (cs : List String) (c : String) (h : c ∉ cs) (k acc : Nat) :
    (cs.zipIdx k).foldl (fun acc e => if e.1 = c then e.2 + 1 else acc) acc = acc := by
  induction cs generalizing k acc with
  | nil => rfl
  | cons b cs ih =>
    rw [List.zipIdx_cons, List.foldl_cons, ih (fun hc => h (by simp [hc]))]
    rw [if_neg (fun e => h (by simp at e; simp [e]))]

theorem colFold_mem (cs : List String) (hn : cs.Nodup) (c : String) (i : Nat) (hi : cs[i]? = some c) (k acc : Nat) :
    (cs.zipIdx k).foldl (fun acc e => if e.1 = c then e.2 + 1 else acc) acc = k + i + 1 := by
  induction cs generalizing k acc i with
  | nil => simp at hi
  | cons b cs ih =>
    rw [List.zipIdx_cons, List.foldl_cons]
    have hn' := List.nodup_cons.1 hn
    cases i with
    | zero =>
      simp at hi
      subst hi
      rw [colFold_not_mem _ _ hn'.1, if_pos rfl]
    | succ i =>
      rw [ih hn'.2 i (by simpa using hi)]
      omega

theorem colPos_eq {cs : List String} (hn : cs.Nodup) {c : String} {i : Nat} (hi : cs[i]? = some c) : colPos cs c = i + 1 := by
  unfold colPos
  rw [colFold_mem cs hn c i hi]
  omega

theorem getCol_eq {f : LineFormat} (hn : f.columns.Nodup) {g : List String} {val : String → String}
    (hg : ∀ i c, f.columns[i]? = some c → g[i + 1]? = some (val c)) {c : String} (hc : c ∈ f.columns) : getCol f g c = .ok (val c) := by
  obtain ⟨i, hi⟩ := List.mem_iff_getElem?.1 hc
  unfold getCol
  rw [colPos_eq hn hi, hg i c hi]

section
variable {κ : Type} [DecidableEq κ]

/-- An entry of a `defaultdict` which exists once something was put into it. -/
def optEntry (k : κ) (a : Attrs) : Dict κ Attrs := if a = [] then [] else [(k, a)]

theorem get?_append_new (d : Dict κ Attrs) (k : κ) (a : Attrs) (h : k ∉ Dict.keys d) : Dict.get? (d ++ [(k, a)]) k = some a := by
  rw [← set_new d k a h, Dict.get?_set, if_pos rfl]

theorem set_append_new (d : Dict κ Attrs) (k : κ) (a b : Attrs) (h : k ∉ Dict.keys d) :
    Dict.set (d ++ [(k, a)]) k b = d ++ [(k, b)] := by
  induction d with
  | nil => simp [Dict.set]
  | cons p d ih =>
    have h1 : p.1 ≠ k := fun e => h (by rw [← e]; simp [Dict.keys])
    rw [List.cons_append]
    unfold Dict.set
    rw [if_neg h1, ih (fun hm => h (by rw [Dict.keys_cons]; exact List.mem_cons_of_mem _ hm))]
    rfl

theorem setIn_optEntry (d : Dict κ Attrs) (k : κ) (a : Attrs) (c v : String) (h : k ∉ Dict.keys d) :
    setIn (d ++ optEntry k a) k c v = d ++ [(k, Dict.set a c v)] := by
  unfold setIn optEntry
  by_cases ha : a = []
  · subst ha
    rw [if_pos rfl, List.append_nil, (Dict.get?_eq_none_iff d k).2 h, set_new d k _ h]
    rfl
  · rw [if_neg ha, get?_append_new d k a h, set_append_new d k _ _ h]
    rfl

theorem setIn_optEntry' (d : Dict κ Attrs) (k : κ) (a : Attrs) (c v : String) (h : k ∉ Dict.keys d) (hc : c ∉ Dict.keys a) :
    setIn (d ++ optEntry k a) k c v = d ++ optEntry k (a ++ [(c, v)]) := by
  rw [setIn_optEntry d k a c v h, set_new a c v hc]
  unfold optEntry
  rw [if_neg (by simp)]
end

/-- The columns that become node attributes, with their contents. -/
def nodeCols (f : LineFormat) (w : Word) (cs : List String) : Attrs :=
  (cs.filter (fun c => decide (c ∈ f.nodeAttr))).map (fun c => (c, w.val c))

def edgeCols (f : LineFormat) (ea : List String) (w : Word) (cs : List String) : Attrs :=
  (cs.filter (fun c => decide (c ∉ f.nodeAttr ∧ c ∈ ea))).map (fun c => (c, w.val c))

theorem colStep_fold {f : LineFormat} {ea : List String} (hn : f.columns.Nodup) {g : List String} {w : Word}
    (hg : ∀ i c, f.columns[i]? = some c → g[i + 1]? = some (w.val c)) {st : Parts} (h1 : w.id ∉ Dict.keys st.1)
    (h2 : (w.head, w.id) ∉ Dict.keys st.2) (cs : List String) (hsub : ∀ c ∈ cs, c ∈ f.columns) (hcs : cs.Nodup) :
    cs.foldlM (colStep f ea g w.id w.head) st =
      .ok (st.1 ++ optEntry w.id (nodeCols f w cs), st.2 ++ optEntry (w.head, w.id) (edgeCols f ea w cs)) := by
  induction cs using List.reverseRecOn with
  | nil =>
    show Except.ok st = _
    simp [optEntry, nodeCols, edgeCols]
  | append_singleton cs c ih =>
    rw [List.foldlM_append, ih (fun c hc => hsub c (by simp [hc])) (List.nodup_append.1 hcs).1]
    have hnc : c ∉ cs := by
      intro hc
      exact (List.nodup_append.1 hcs).2.2 c hc c (by simp) rfl
    have hcol := getCol_eq hn hg (hsub c (by simp))
    have hn1 : nodeCols f w (cs ++ [c]) = if c ∈ f.nodeAttr then nodeCols f w cs ++ [(c, w.val c)] else nodeCols f w cs := by
      unfold nodeCols
      rw [List.filter_append, List.map_append]
      by_cases h : c ∈ f.nodeAttr <;> simp [h]
    have he1 : edgeCols f ea w (cs ++ [c]) = if c ∉ f.nodeAttr ∧ c ∈ ea then edgeCols f ea w cs ++ [(c, w.val c)] else edgeCols f ea w cs := by
      unfold edgeCols
      rw [List.filter_append, List.map_append]
      by_cases h : c ∉ f.nodeAttr ∧ c ∈ ea <;> simp [h]
    have hk1 : c ∉ Dict.keys (nodeCols f w cs) := by
      unfold nodeCols; rw [keys_graph]; simp [hnc]
    have hk2 : c ∉ Dict.keys (edgeCols f ea w cs) := by
      unfold edgeCols; rw [keys_graph]; simp [hnc]
    simp only [bind, Except.bind, List.foldlM_cons, List.foldlM_nil, colStep, hcol, pure, Except.pure]
    rw [hn1, he1]
    by_cases hA : c ∈ f.nodeAttr
    · rw [if_pos hA, if_pos hA, if_neg (by simp [hA]), setIn_optEntry' _ _ _ _ _ h1 hk1]
    · rw [if_neg hA, if_neg hA]
      by_cases hB : c ∈ ea
      · rw [if_pos hB, if_pos ⟨hA, hB⟩, setIn_optEntry' _ _ _ _ _ h2 hk2]
      · rw [if_neg hB, if_neg (by simp [hB])]

/-- Attributes of the node of a word. -/
def wordNode (f : LineFormat) (w : Word) : Nat × Attrs := (w.id, Dict.set (nodeCols f w f.columns) "lid" (toString w.lid))
/-- Attributes of the edge of a word. -/
def wordEdge (f : LineFormat) (ea : List String) (w : Word) : (Nat × Nat) × Attrs := ((w.head, w.id), edgeCols f ea w f.columns)

variable {f : LineFormat} {ea : List String}

theorem lines_fold (S : DepSettings f ea) (ws : List Word) (hw : ∀ w ∈ ws, WordLine f w) (hid : (ws.map Word.id).Nodup) :
    (ws.map (fun w => (w.lid, w.line))).foldlM (lineStep f) ([], []) = .ok (ws.map (wordNode f), ws.map (wordEdge f ea)) := by
  induction ws using List.reverseRecOn with
  | nil => rfl
  | append_singleton ws w ih =>
    have hid' : (ws.map Word.id ++ [w.id]).Nodup := by simpa using hid
    rw [List.map_append, List.foldlM_append, ih (fun w hw' => hw w (by simp [hw'])) (List.nodup_append.1 hid').1]
    obtain ⟨⟨g, hg, hcols⟩, hi, hh⟩ := hw w (by simp)
    have hnew : ∀ x ∈ ws, x.id ≠ w.id := fun x hx e => (List.nodup_append.1 hid').2.2 x.id (List.mem_map_of_mem hx) w.id (by simp) e
    have h1 : w.id ∉ Dict.keys (ws.map (wordNode f)) := by
      intro hm
      unfold Dict.keys at hm
      rw [List.map_map] at hm
      obtain ⟨x, hx, he⟩ := List.mem_map.1 hm
      exact hnew x hx he
    have h2 : (w.head, w.id) ∉ Dict.keys (ws.map (wordEdge f ea)) := by
      intro hm
      unfold Dict.keys at hm
      rw [List.map_map] at hm
      obtain ⟨x, hx, he⟩ := List.mem_map.1 hm
      exact hnew x hx (congrArg Prod.snd he)
    have hfold := colStep_fold (ea := ea) S.distinct (st := (ws.map (wordNode f), ws.map (wordEdge f ea))) hcols h1 h2 f.columns (fun _ h => h) S.distinct
    have hc1 := getCol_eq S.distinct hcols S.currID
    have hc2 := getCol_eq S.distinct hcols S.headID
    have hne : edgeCols f ea w f.columns ≠ [] := by
      obtain ⟨c, hc, h1, h2⟩ := S.edgeCol
      unfold edgeCols
      rw [Ne, List.map_eq_nil_iff]
      intro h
      have := List.filter_eq_nil_iff.1 h c hc
      simp [h1, h2] at this
    have hl : lineStep f (ws.map (wordNode f), ws.map (wordEdge f ea)) (w.lid, w.line) =
        .ok (ws.map (wordNode f) ++ [wordNode f w], ws.map (wordEdge f ea) ++ [wordEdge f ea w]) := by
      unfold lineStep
      simp only [hg, S.edgeAttr]
      simp only [hc1, hc2, bind, Except.bind, intOf, hi, hh]
      rw [hfold]
      simp only
      rw [setIn_optEntry _ _ _ _ _ h1]
      unfold optEntry
      rw [if_neg hne]
      rfl
    simp only [bind, Except.bind, List.map_cons, List.map_nil, List.foldlM_cons, List.foldlM_nil, hl, List.map_append]
    rfl

/-! ### The graph -/

theorem addNodes_eq (l : Dict Nat Attrs) (hl : ∀ e ∈ l, Dict.WF e.2) (g : Graph) (h : (g.nodes.keys ++ Dict.keys l).Nodup) :
    l.foldl addNode g = { g with nodes := g.nodes ++ l } := by
  induction l generalizing g with
  | nil => simp
  | cons e l ih =>
    rw [List.foldl_cons]
    have hk : e.1 ∉ g.nodes.keys := by
      intro hm
      exact (List.nodup_append.1 h).2.2 e.1 hm e.1 (by simp [Dict.keys]) rfl
    have he : addNode g e = { g with nodes := g.nodes ++ [e] } := by
      unfold addNode
      rw [(Dict.get?_eq_none_iff g.nodes e.1).2 hk, set_new _ _ _ hk]
      have : Dict.update ([] : Attrs) e.2 = e.2 := by
        have hwf := hl e (by simp)
        simpa using update_disjoint ([] : Attrs) e.2 (by rw [Dict.keys_nil, List.nil_append]; exact hwf)
      show _ = _
      simp only [Option.getD_none, this]
    rw [he, ih (fun e he => hl e (by simp [he]))]
    · simp
    · show (Dict.keys (g.nodes ++ [e]) ++ Dict.keys l).Nodup
      have : Dict.keys (g.nodes ++ [e]) ++ Dict.keys l = g.nodes.keys ++ Dict.keys (e :: l) := by
        simp [Dict.keys]
      rw [this]
      exact h

theorem get?_touch (d : Dict Nat Attrs) (v x : Nat) : Dict.get? (touch d v) x = if x = v ∧ v ∉ d.keys then some [] else d.get? x := by
  unfold touch
  by_cases h : v ∈ d.keys
  · rw [if_pos h, if_neg (by simp [h])]
  · rw [if_neg h, Dict.get?_set]
    by_cases hx : v = x
    · rw [if_pos hx, if_pos ⟨hx.symm, h⟩]
    · rw [if_neg hx, if_neg (fun e => hx e.1.symm)]

theorem mem_keys_touch (d : Dict Nat Attrs) (v x : Nat) : x ∈ Dict.keys (touch d v) ↔ x ∈ d.keys ∨ x = v := by
  rw [← Dict.get?_isSome_iff, get?_touch]
  by_cases h : x = v ∧ v ∉ d.keys
  · rw [if_pos h]; simp [h.1]
  · rw [if_neg h, Dict.get?_isSome_iff]
    constructor
    · exact Or.inl
    · rintro (h' | rfl)
      · exact h'
      · by_contra hc
        exact h ⟨rfl, hc⟩

theorem WF_touch {d : Dict Nat Attrs} (h : d.WF) (v : Nat) : Dict.WF (touch d v) := by
  unfold touch
  split_ifs
  · exact h
  · exact Dict.WF_set h _ _

/-- The nodes after adding edges. -/
def touchEnds (d : Dict Nat Attrs) (l : List (Nat × Nat)) : Dict Nat Attrs := l.foldl (fun d e => touch (touch d e.1) e.2) d

theorem touchEnds_spec (l : List (Nat × Nat)) (d : Dict Nat Attrs) (hd : d.WF) :
    Dict.WF (touchEnds d l) ∧ (∀ x, x ∈ Dict.keys (touchEnds d l) ↔ x ∈ d.keys ∨ ∃ e ∈ l, x = e.1 ∨ x = e.2) ∧
      (∀ x, x ∈ d.keys → Dict.get? (touchEnds d l) x = d.get? x) ∧
      (∀ x a, Dict.get? (touchEnds d l) x = some a → x ∉ d.keys → a = []) := by
  induction l generalizing d with
  | nil =>
    refine ⟨hd, fun x => ?_, fun x _ => rfl, fun x a h hx => ?_⟩
    · simp [touchEnds]
    · exact absurd ((Dict.get?_isSome_iff d x).1 (by rw [show Dict.get? d x = some a from h]; rfl)) hx
  | cons e l ih =>
    obtain ⟨i1, i2, i3, i4⟩ := ih (touch (touch d e.1) e.2) (WF_touch (WF_touch hd _) _)
    have hu : touchEnds d (e :: l) = touchEnds (touch (touch d e.1) e.2) l := rfl
    rw [hu]
    refine ⟨i1, fun x => ?_, fun x hx => ?_, fun x a h hx => ?_⟩
    · rw [i2, mem_keys_touch, mem_keys_touch]
      simp only [List.mem_cons, exists_eq_or_imp, or_assoc]
    · rw [i3 x (by rw [mem_keys_touch, mem_keys_touch]; exact Or.inl (Or.inl hx)), get?_touch, get?_touch]
      rw [if_neg, if_neg]
      · rintro ⟨rfl, h⟩; exact h hx
      · rintro ⟨rfl, h⟩; exact h (by rw [mem_keys_touch]; exact Or.inl hx)
    · by_cases hm : x ∈ Dict.keys (touch (touch d e.1) e.2)
      · rw [i3 x hm, get?_touch, get?_touch] at h
        have hn := (Dict.get?_eq_none_iff d x).2 hx
        rw [hn] at h
        split_ifs at h
        · cases h; rfl
        · cases h; rfl
      · exact i4 x a h hm

theorem addEdges_eq (l : Dict (Nat × Nat) Attrs) (hl : ∀ e ∈ l, Dict.WF e.2 ∧ "id" ∉ Dict.keys e.2) (g : Graph)
    (h : (g.edges.keys ++ Dict.keys l).Nodup) :
    l.foldlM addEdge g = .ok { nodes := touchEnds g.nodes (Dict.keys l), edges := g.edges ++ l } := by
  induction l generalizing g with
  | nil =>
    show Except.ok g = _
    simp [touchEnds]
  | cons e l ih =>
    rw [List.foldlM_cons]
    have hk : e.1 ∉ g.edges.keys := by
      intro hm
      exact (List.nodup_append.1 h).2.2 e.1 hm e.1 (by simp [Dict.keys]) rfl
    have he : addEdge g e = .ok { nodes := touch (touch g.nodes e.1.1) e.1.2, edges := g.edges ++ [e] } := by
      unfold addEdge
      rw [if_neg (hl e (by simp)).2, (Dict.get?_eq_none_iff g.edges e.1).2 hk, set_new _ _ _ hk]
      have : Dict.update ([] : Attrs) e.2 = e.2 := by
        have hwf := (hl e (by simp)).1
        simpa using update_disjoint ([] : Attrs) e.2 (by rw [Dict.keys_nil, List.nil_append]; exact hwf)
      simp only [Option.getD_none, this]
    rw [he]
    simp only [bind, Except.bind]
    rw [ih (fun e he => hl e (by simp [he]))]
    · simp [touchEnds]
    · show (Dict.keys (g.edges ++ [e]) ++ Dict.keys l).Nodup
      have : Dict.keys (g.edges ++ [e]) ++ Dict.keys l = g.edges.keys ++ Dict.keys (e :: l) := by
        simp [Dict.keys]
      rw [this]
      exact h

theorem get?_map_key {κ ω : Type} [DecidableEq κ] (k : ω → κ) (a : ω → Attrs) (l : List ω) (hn : (l.map k).Nodup) {w : ω} (hw : w ∈ l) :
    Dict.get? (l.map (fun w => (k w, a w))) (k w) = some (a w) := by
  apply Dict.get?_of_mem
  · unfold Dict.WF Dict.keys
    rw [List.map_map]
    exact hn
  · exact List.mem_map.2 ⟨w, hw, rfl⟩

/-- **C69**: for a non-empty sentence of word lines with different indices, `SentenceGraph` gives the graph of the sentence. -/
theorem C69_graph (S : DepSettings f ea) (ws : List Word) (hne : ws ≠ []) (hw : ∀ w ∈ ws, WordLine f w) (hid : (ws.map Word.id).Nodup) :
    ∃ g, sentenceGraph f (ws.map (fun w => (w.lid, w.line))) = .ok g ∧ Represents f ea ws g := by
  have hN : Dict.keys (ws.map (wordNode f)) = ws.map Word.id := by
    unfold Dict.keys; rw [List.map_map]; rfl
  have hE : Dict.keys (ws.map (wordEdge f ea)) = ws.map (fun w => (w.head, w.id)) := by
    unfold Dict.keys; rw [List.map_map]; rfl
  have hEn : (ws.map (fun w => (w.head, w.id))).Nodup := by
    apply List.Nodup.of_map Prod.snd
    rw [List.map_map]
    exact hid
  have wf1 : ∀ w : Word, Dict.WF (nodeCols f w f.columns) := by
    intro w
    unfold nodeCols Dict.WF
    rw [keys_graph]
    exact S.distinct.filter _
  have wf2 : ∀ w : Word, Dict.WF (edgeCols f ea w f.columns) := by
    intro w
    unfold edgeCols Dict.WF
    rw [keys_graph]
    exact S.distinct.filter _
  have hadd := addNodes_eq (ws.map (wordNode f)) (by
    intro e he
    obtain ⟨w, _, rfl⟩ := List.mem_map.1 he
    exact Dict.WF_set (wf1 w) _ _) ⟨[], []⟩ (by rw [hN]; simpa using hid)
  have hed := addEdges_eq (ws.map (wordEdge f ea)) (by
    intro e he
    obtain ⟨w, _, rfl⟩ := List.mem_map.1 he
    refine ⟨wf2 w, ?_⟩
    show "id" ∉ Dict.keys (edgeCols f ea w f.columns)
    unfold edgeCols
    rw [keys_graph]
    intro hm
    obtain ⟨h1, h2⟩ := List.mem_filter.1 hm
    simp only [decide_eq_true_eq] at h2
    exact h2.1 (S.noId h1 h2.2)) ⟨ws.map (wordNode f), []⟩ (by rw [hE]; simpa using hEn)
  have hwf : Dict.WF (ws.map (wordNode f)) := by unfold Dict.WF; rw [hN]; exact hid
  obtain ⟨t1, t2, t3, t4⟩ := touchEnds_spec (Dict.keys (ws.map (wordEdge f ea))) (ws.map (wordNode f)) hwf
  refine ⟨⟨touchEnds (ws.map (wordNode f)) (Dict.keys (ws.map (wordEdge f ea))), ws.map (wordEdge f ea)⟩, ?_, ?_⟩
  · unfold sentenceGraph
    rw [if_neg (by simpa using hne), lines_fold S ws hw hid]
    simp only [bind, Except.bind]
    unfold generateGraph
    simp only
    rw [hadd]
    simp only [List.nil_append]
    rw [hed]
    simp
  · refine ⟨t1, by unfold Dict.WF; simp only [hE]; exact hEn, ?_, ?_, ?_, ?_, ?_⟩
    · intro w hw'
      refine ⟨(wordNode f w).2, ?_, ?_⟩
      · rw [t3 w.id (by rw [hN]; exact List.mem_map_of_mem hw')]
        exact get?_map_key Word.id (fun w => (wordNode f w).2) ws hid hw'
      · intro c
        unfold wordNode nodeCols
        simp only
        rw [Dict.get?_set, get?_graph]
        by_cases hc : "lid" = c
        · simp only [if_pos hc, if_pos hc.symm]
        · have hc' : ¬ c = "lid" := fun e => hc e.symm
          simp only [if_neg hc, if_neg hc', List.mem_filter, decide_eq_true_eq]
    · intro w hw'
      refine ⟨(wordEdge f ea w).2, ?_, ?_⟩
      · exact get?_map_key (fun w : Word => (w.head, w.id)) (fun w => (wordEdge f ea w).2) ws hEn hw'
      · intro c
        unfold wordEdge edgeCols
        simp only
        rw [get?_graph]
        simp only [List.mem_filter, decide_eq_true_eq]
        apply if_congr _ rfl rfl
        tauto
    · intro u v
      unfold HasEdge
      simp only [hE]
      rw [List.mem_map]
      constructor
      · rintro ⟨w, hw', he⟩
        cases he
        exact ⟨w, hw', rfl, rfl⟩
      · rintro ⟨w, hw', rfl, rfl⟩
        exact ⟨w, hw', rfl⟩
    · intro x
      show x ∈ Dict.keys (touchEnds _ _) ↔ _
      rw [t2, hN, hE]
      simp only [List.mem_map]
      constructor
      · rintro (⟨w, hw', rfl⟩ | ⟨e, ⟨w, hw', rfl⟩, h | h⟩)
        · exact ⟨w, hw', Or.inl rfl⟩
        · exact ⟨w, hw', Or.inr h⟩
        · exact ⟨w, hw', Or.inl h⟩
      · rintro ⟨w, hw', rfl | rfl⟩
        · exact Or.inl ⟨w, hw', rfl⟩
        · exact Or.inr ⟨_, ⟨w, hw', rfl⟩, Or.inl rfl⟩
    · intro x a ha hx
      apply t4 x a ha
      rw [hN]
      intro hm
      obtain ⟨w, hw', rfl⟩ := List.mem_map.1 hm
      exact hx w hw' rfl

end Verif.Dep
