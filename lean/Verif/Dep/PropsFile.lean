import Verif.Dep.PropsGraph

set_option linter.unusedSectionVars false

/-!
# C39, C70: all sentences of a file are matched
-/

namespace Verif.Dep
open Verif.Py

/-! ## Specification -/

/-- The lines of a sentence. -/
def linesOf (ws : List Word) : List (Nat × String) := ws.map (fun w => (w.lid, w.line))

/-- A sentence as corpora have them: not empty, with word lines of different indices. -/
structure GoodSentence (f : LineFormat) (ws : List Word) : Prop where
  nonempty : ws ≠ []
  lines : ∀ w ∈ ws, WordLine f w
  ids : (ws.map Word.id).Nodup

/-- A macro whose pattern is a rooted tree with node 1, all of whose nodes and edges have conditions, on attributes that the
corpus has (not on file names or line numbers). -/
structure GoodMacro (f : LineFormat) (ea : List String) (m : Macro) : Prop where
  tree : ∃ r, RootedTree m.graph r
  one : 1 ∈ m.graph.nodes.keys
  depth : getDepth m.graph = .ok m.depth
  target : m.targetIdx ∈ m.graph.nodes.keys
  targetAttrs : ∀ a ∈ m.targetAttrs.keys, isTokenAttr a = false → a ∈ f.columns ∧ a ∈ f.nodeAttr
  nodes : ∀ x pat, m.graph.nodes.get? x = some pat → pat ≠ [] ∧ ∀ a ∈ Dict.keys pat, isTokenAttr a = false ∧ a ∈ f.columns ∧ a ∈ f.nodeAttr
  edges : ∀ x pat, m.graph.edges.get? x = some pat → pat ≠ [] ∧ ∀ a ∈ Dict.keys pat, a ∈ f.columns ∧ a ∈ ea ∧ a ∉ f.nodeAttr

/-- Specification of what a sentence adds to the matches of a macro: nothing if its graph is not a tree; else one record
for each embedding of the pattern which the filter keeps. -/
def SentenceAdds (rx : String → String → Bool) (istree : Graph → Bool) (f : LineFormat) (ea : List String) (fid : Option String)
    (m : Macro) (ws : List Word) (recs : List Match) : Prop :=
  ∃ g, sentenceGraph f (linesOf ws) = .ok g ∧ Represents f ea ws g ∧ (istree g = false → recs = []) ∧
    (istree g = true → ∃ maps : List (Dict Nat Nat), (maps.map Dict.get?).Nodup ∧ (∀ φ, φ ∈ maps.map Dict.get? ↔ Fits rx g m.graph φ) ∧
      List.Forall₂ (fun d rec => Records g m.graph fid (Dict.get? d) rec) (maps.filter (keeps g m)) recs)

/-! ## Proofs -/

section
variable {rx : String → String → Bool} {istree : Graph → Bool} {f : LineFormat} {ea : List String} {fid : Option String}

theorem represents_ready {ws : List Word} {g : Graph} {m : Macro} (P : Represents f ea ws g) (G : GoodMacro f ea m) :
    Ready g m.graph where
  nodesWF := P.nodesWF
  edgesWF := P.edgesWF
  ends := by
    intro u v h
    obtain ⟨w, hw, rfl, rfl⟩ := (P.edgeIff u v).1 h
    exact ⟨(P.nodeIff _).2 ⟨w, hw, Or.inr rfl⟩, (P.nodeIff _).2 ⟨w, hw, Or.inl rfl⟩⟩
  nodeAttrs := by
    intro x pat y item hp hs hne a ha
    by_cases hy : ∃ w ∈ ws, y = w.id
    · obtain ⟨w, hw, rfl⟩ := hy
      obtain ⟨b, hb, hc⟩ := P.node w hw
      rw [hs] at hb
      cases hb
      rw [← Dict.get?_isSome_iff, hc]
      have h := (G.nodes x pat hp).2 a ha
      by_cases hl : a = "lid"
      · rw [if_pos hl]; rfl
      · rw [if_neg hl, if_pos h.2]; rfl
    · exact absurd (P.bare y item hs (fun w hw e => hy ⟨w, hw, e⟩)) hne
  edgeAttrs := by
    intro x pat y item hp hs a ha
    have hh : HasEdge g y.1 y.2 := (Dict.get?_isSome_iff g.edges y).1 (by rw [hs]; rfl)
    obtain ⟨w, hw, h1, h2⟩ := (P.edgeIff _ _).1 hh
    obtain ⟨b, hb, hc⟩ := P.edge w hw
    rw [← h1, ← h2, show (y.1, y.2) = y from rfl, hs] at hb
    cases hb
    rw [← Dict.get?_isSome_iff, hc, if_pos ((G.edges x pat hp).2 a ha)]
    rfl
  nodeAsks := fun x pat h => (G.nodes x pat h).1
  edgeAsks := fun x pat h => (G.edges x pat h).1
  names := fun x pat h a ha => by
    have := ((G.nodes x pat h).2 a ha).1
    refine ⟨?_, ?_, ?_⟩ <;> (rintro rfl; exact absurd this (by decide))

theorem treeMatch_adds {ws : List Word} {g : Graph} {m : Macro} (hg : sentenceGraph f (linesOf ws) = .ok g) (P : Represents f ea ws g) (G : GoodMacro f ea m) (ht : istree g = true) :
    ∃ recs, treeMatch rx (istree g) g fid m = .ok { m with found := m.found ++ recs } ∧ SentenceAdds rx istree f ea fid m ws recs := by
  obtain ⟨r, T⟩ := G.tree
  obtain ⟨maps, recs, h1, h2, h3, h4⟩ := C38_partial (rx := rx) (represents_ready P G) T G.one G.depth fid G.target (by
    intro y item hs hne a ha hta
    by_cases hy : ∃ w ∈ ws, y = w.id
    · obtain ⟨w, hw, rfl⟩ := hy
      obtain ⟨b, hb, hc⟩ := P.node w hw
      rw [hs] at hb
      cases hb
      rw [← Dict.get?_isSome_iff, hc]
      by_cases hl : a = "lid"
      · rw [if_pos hl]; rfl
      · rw [if_neg hl, if_pos (G.targetAttrs a ha hta)]; rfl
    · exact absurd (P.bare y item hs (fun w hw e => hy ⟨w, hw, e⟩)) hne)
  refine ⟨recs, by rw [ht]; exact h3, g, hg, P, ?_, fun _ => ⟨maps, h1, h2, h4⟩⟩
  intro h
  rw [ht] at h
  cases h

/-- Progress of one macro. -/
def Grew (rx : String → String → Bool) (istree : Graph → Bool) (f : LineFormat) (ea : List String) (fid : Option String)
    (sents : List (List Word)) (m m' : Macro) : Prop :=
  ∃ parts : List (List Match), List.Forall₂ (SentenceAdds rx istree f ea fid m) sents parts ∧ m' = { m with found := m.found ++ parts.flatten }

theorem mapM_grew {g : Graph} {ws : List Word} (hg : sentenceGraph f (linesOf ws) = .ok g) (P : Represents f ea ws g) (ht : istree g = true) (ms : List Macro) (hG : ∀ m ∈ ms, GoodMacro f ea m) :
    ∃ ms', ms.mapM (treeMatch rx (istree g) g fid) = .ok ms' ∧ List.Forall₂ (Grew rx istree f ea fid [ws]) ms ms' := by
  induction ms with
  | nil => exact ⟨[], rfl, .nil⟩
  | cons m ms ih =>
    obtain ⟨ms', h1, h2⟩ := ih (fun m hm => hG m (by simp [hm]))
    obtain ⟨recs, h3, h4⟩ := treeMatch_adds (rx := rx) (fid := fid) hg P (hG m (by simp)) ht
    refine ⟨{ m with found := m.found ++ recs } :: ms', ?_, .cons ⟨[recs], .cons h4 .nil, by simp⟩ h2⟩
    rw [List.mapM_cons, h3]
    simp only [bind, Except.bind, h1, pure, Except.pure]

theorem matchSentence_grew (S : DepSettings f ea) {ws : List Word} (hs : GoodSentence f ws) (ms : List Macro) (hG : ∀ m ∈ ms, GoodMacro f ea m) :
    ∃ ms', matchSentence rx istree f fid ms (linesOf ws) = .ok ms' ∧ List.Forall₂ (Grew rx istree f ea fid [ws]) ms ms' := by
  obtain ⟨g, hg, P⟩ := C69_graph S ws hs.nonempty hs.lines hs.ids
  unfold matchSentence linesOf
  rw [hg]
  simp only [bind, Except.bind]
  by_cases ht : istree g = true
  · rw [if_pos ht]
    exact mapM_grew hg P ht ms hG
  · rw [if_neg ht]
    refine ⟨ms, rfl, List.forall₂_same.2 ?_⟩
    intro m _
    exact ⟨[[]], .cons ⟨g, hg, P, fun _ => rfl, fun h => absurd h ht⟩ .nil, by simp⟩

theorem Grew.trans {s1 s2 : List (List Word)} {a b c : Macro} (h1 : Grew rx istree f ea fid s1 a b) (h2 : Grew rx istree f ea fid s2 b c) :
    Grew rx istree f ea fid (s1 ++ s2) a c := by
  obtain ⟨p1, q1, rfl⟩ := h1
  obtain ⟨p2, q2, rfl⟩ := h2
  exact ⟨p1 ++ p2, List.rel_append q1 q2, by simp⟩

theorem GoodMacro.found {m : Macro} (G : GoodMacro f ea m) (l : List Match) : GoodMacro f ea { m with found := l } :=
  ⟨G.tree, G.one, G.depth, G.target, G.targetAttrs, G.nodes, G.edges⟩

theorem sentences_grew (S : DepSettings f ea) (sents : List (List Word)) (hs : ∀ ws ∈ sents, GoodSentence f ws) (ms : List Macro)
    (hG : ∀ m ∈ ms, GoodMacro f ea m) :
    ∃ ms', (sents.map linesOf).foldlM (matchSentence rx istree f fid) ms = .ok ms' ∧ List.Forall₂ (Grew rx istree f ea fid sents) ms ms' := by
  induction sents generalizing ms with
  | nil => exact ⟨ms, rfl, List.forall₂_same.2 (fun m _ => ⟨[], .nil, by simp⟩)⟩
  | cons ws sents ih =>
    obtain ⟨ms1, h1, h2⟩ := matchSentence_grew (rx := rx) (istree := istree) (fid := fid) S (hs ws (by simp)) ms hG
    have hG1 : ∀ m ∈ ms1, GoodMacro f ea m := by
      intro m1 hm1
      obtain ⟨m, hm, p, _, rfl⟩ : ∃ m, m ∈ ms ∧ Grew rx istree f ea fid [ws] m m1 := by
        clear * - h2 hm1
        induction h2 with
        | nil => cases hm1
        | cons h _ ih =>
          rcases List.mem_cons.1 hm1 with rfl | h'
          · exact ⟨_, by simp, h⟩
          · obtain ⟨m, hm, hh⟩ := ih h'
            exact ⟨m, by simp [hm], hh⟩
      exact (hG m hm).found _
    obtain ⟨ms2, h3, h4⟩ := ih (fun ws h => hs ws (by simp [h])) ms1 hG1
    refine ⟨ms2, ?_, ?_⟩
    · rw [List.map_cons, List.foldlM_cons, h1]
      exact h3
    · clear * - h2 h4
      induction h2 generalizing ms2 with
      | nil => cases h4; exact .nil
      | cons h _ ih =>
        cases h4 with
        | cons h' t => exact .cons (h.trans h') (ih _ t)

/-- Every sentence of a file whose word lines are in order is a good sentence: `C39`'s hypotheses in terms of lines. -/
theorem exists_sentences {f : LineFormat} (file : List String) (hne : ∀ k < file.countP f.isSep, segment f file k ≠ [])
    (hw : ∀ e ∈ wordLines f file, ∃ w : Word, (w.lid, w.line) = e ∧ WordLine f w)
    (hid : ∀ s ∈ readSentence f file, ∀ ws : List Word, linesOf ws = s → (∀ w ∈ ws, WordLine f w) → (ws.map Word.id).Nodup) :
    ∃ sents : List (List Word), readSentence f file = sents.map linesOf ∧ ∀ ws ∈ sents, GoodSentence f ws := by
  have hnil : ∀ s ∈ readSentence f file, s ≠ [] := by
    intro s hs
    obtain ⟨k, hk⟩ := List.mem_iff_getElem?.1 hs
    rw [C39_sentences] at hk
    split_ifs at hk with h
    cases hk
    rcases h with h | h
    · exact hne k h
    · exact h
  have hl : ∀ s ∈ readSentence f file, ∀ e ∈ s, ∃ w : Word, (w.lid, w.line) = e ∧ WordLine f w := by
    intro s hs e he
    apply hw
    rw [← C39_lines]
    exact List.mem_flatten.2 ⟨s, hs, he⟩
  generalize readSentence f file = ss at hnil hl hid
  induction ss with
  | nil => exact ⟨[], rfl, by simp⟩
  | cons s ss ih =>
    obtain ⟨sents, h1, h2⟩ := ih (fun s hs => hnil s (by simp [hs])) (fun s hs => hl s (by simp [hs])) (fun s hs => hid s (by simp [hs]))
    have : ∃ ws : List Word, linesOf ws = s ∧ ∀ w ∈ ws, WordLine f w := by
      have := hl s (by simp)
      clear * - this
      induction s with
      | nil => exact ⟨[], rfl, by simp⟩
      | cons e s ih =>
        obtain ⟨ws, h1, h2⟩ := ih (fun e he => this e (by simp [he]))
        obtain ⟨w, hw, hw'⟩ := this e (by simp)
        refine ⟨w :: ws, by unfold linesOf at *; simp [h1, hw], ?_⟩
        intro x hx
        rcases List.mem_cons.1 hx with rfl | hx
        · exact hw'
        · exact h2 x hx
    obtain ⟨ws, hws, hws'⟩ := this
    refine ⟨ws :: sents, by simp [h1, hws], ?_⟩
    intro x hx
    rcases List.mem_cons.1 hx with rfl | hx
    · refine ⟨?_, hws', hid s (by simp) _ hws hws'⟩
      rintro rfl
      exact hnil s (by simp) hws.symm
    · exact h2 x hx

/-- **C39** (partial), **C70** for one file: a file all of whose sentences (as characterised by `C39_sentences`) have word
lines, with different indices, is processed without exception; every sentence adds its matches, in order, to every macro.  Missing
from C39: sentences without word lines, see `C39_false_empty`. -/
theorem C39_partial (S : DepSettings f ea) (file : List String) {sents : List (List Word)} (hf : readSentence f file = sents.map linesOf)
    (hs : ∀ ws ∈ sents, GoodSentence f ws) (targets : List String) (macros : List Macro) (hG : ∀ m ∈ macros, GoodMacro f ea m) :
    ∃ macros', depJob rx istree f fid targets macros file = .ok macros' ∧
      List.Forall₂ (fun m m' => ∃ parts : List (List Match),
        List.Forall₂ (SentenceAdds rx istree f ea fid { m with filter := some targets }) sents parts ∧
        m' = { m with filter := some targets, found := m.found ++ parts.flatten }) macros macros' := by
  obtain ⟨ms', h1, h2⟩ := sentences_grew (rx := rx) (istree := istree) (fid := fid) S sents hs (macros.map (fun m => { m with filter := some targets })) (by
    intro m hm
    obtain ⟨m0, hm0, rfl⟩ := List.mem_map.1 hm
    have G := hG m0 hm0
    exact ⟨G.tree, G.one, G.depth, G.target, G.targetAttrs, G.nodes, G.edges⟩)
  refine ⟨ms', ?_, ?_⟩
  · unfold depJob
    rw [hf]
    exact h1
  · rw [List.forall₂_map_left_iff] at h2
    exact h2

/-- The head relation of a sentence. -/
def Heads (ws : List Word) (u v : Nat) : Prop := ∃ w ∈ ws, u = w.head ∧ v = w.id

/-- **C69**: if every word hangs, directly or indirectly, from the artificial root, the graph is a tree with that root. -/
theorem C69_tree {ws : List Word} {g : Graph} (P : Represents f ea ws g) (hne : ws ≠ []) (hid : (ws.map Word.id).Nodup)
    (h0 : ∀ w ∈ ws, w.id ≠ 0) (hr : ∀ w ∈ ws, Relation.ReflTransGen (Heads ws) 0 w.id) : RootedTree g 0 := by
  have hE : ∀ u v, HasEdge g u v ↔ Heads ws u v := P.edgeIff
  have hroot : 0 ∈ g.nodes.keys := by
    obtain ⟨w, ws', rfl⟩ := List.exists_cons_of_ne_nil hne
    rcases Relation.ReflTransGen.cases_head (hr w (by simp)) with h | ⟨v, ⟨x, hx, h, _⟩, _⟩
    · exact absurd h.symm (h0 w (by simp))
    · exact (P.nodeIff 0).2 ⟨x, hx, Or.inr h⟩
  have hmono : ∀ v, Relation.ReflTransGen (Heads ws) 0 v → Relation.ReflTransGen (HasEdge g) 0 v := by
    intro v h
    exact Relation.ReflTransGen.mono (fun u v huv => (hE u v).2 huv) _ _ h
  refine ⟨P.nodesWF, P.edgesWF, ?_, hroot, ?_, ?_, ?_⟩
  · intro u v h
    obtain ⟨w, hw, rfl, rfl⟩ := (hE u v).1 h
    exact ⟨(P.nodeIff _).2 ⟨w, hw, Or.inr rfl⟩, (P.nodeIff _).2 ⟨w, hw, Or.inl rfl⟩⟩
  · intro u h
    obtain ⟨w, hw, _, h⟩ := (hE u 0).1 h
    exact h0 w hw h.symm
  · intro u u' v h h'
    obtain ⟨w, hw, rfl, rfl⟩ := (hE u v).1 h
    obtain ⟨w', hw', rfl, he⟩ := (hE u' _).1 h'
    rw [List.inj_on_of_nodup_map hid hw hw' he]
  · intro v hv
    apply hmono
    obtain ⟨w, hw, rfl | rfl⟩ := (P.nodeIff v).1 hv
    · exact hr w hw
    · have h := hr w hw
      rcases Relation.ReflTransGen.cases_tail h with h | ⟨u, hu, x, hx, rfl, he⟩
      · exact absurd h (h0 w hw)
      · rw [List.inj_on_of_nodup_map hid hw hx he]
        exact hu
end

end Verif.Dep
