import Verif.Dep.PropsDepRel
import Verif.Dep.PropsIsTree

set_option linter.unusedSectionVars false

/-!
# C194: the matrix of templates for one dependency relation, from the words of the corpus
-/

namespace Verif.Dep
open Verif.Py Verif.Window Verif.Engine Verif.Matrix Verif.Cooc

/-! ## Specification -/

/-- A template for one relation: conditions (regular expressions by column) on the head, on the dependent and on the relation; whether the
dependent is the target, or else the head; the columns, with group numbers, that targets, nodes and edges are shown by. -/
structure Relation1 where
  head : Attrs
  dep : Attrs
  rel : Attrs
  onDep : Bool
  target : Dict String Nat
  node : Dict String Nat
  edge : Dict String Nat
  connector : String

/-- The template as a macro: node 1 is the head, node 2 the dependent. -/
def Relation1.macro (p : Relation1) : Macro :=
  { graph := ⟨[(1, p.head), (2, p.dep)], [((1, 2), p.rel)]⟩, targetIdx := if p.onDep then 2 else 1, featureIdx := none,
    targetAttrs := p.target, featNodeAttrs := p.node, featEdgeAttrs := p.edge, filter := none, connector := p.connector, depth := 2, found := [] }

/-- The conditions on the target. -/
def Relation1.ofTarget (p : Relation1) : Attrs := if p.onDep then p.dep else p.head

/-- All columns named by the template are columns of the corpus, of the right kind; what is shown is among what is asked for; columns
that stand for files and lines only appear as parts of targets. -/
structure Relation1.Good (f : LineFormat) (ea : List String) (tok : Bool) (p : Relation1) : Prop where
  asks : p.head ≠ [] ∧ p.dep ≠ [] ∧ p.rel ≠ []
  nodes : ∀ a ∈ Dict.keys p.head ++ Dict.keys p.dep, isTokenAttr a = false ∧ a ∈ f.columns ∧ a ∈ f.nodeAttr
  edges : ∀ a ∈ Dict.keys p.rel, a ∈ f.columns ∧ a ∈ ea ∧ a ∉ f.nodeAttr
  target : ∀ a ∈ Dict.keys p.target, isTokenAttr a = false → a ∈ Dict.keys p.ofTarget
  line : tok = true → "LID" ∉ Dict.keys p.target
  node : ∀ a ∈ Dict.keys p.node, a ∈ Dict.keys p.head ∧ a ∈ Dict.keys p.dep
  edge : ∀ a ∈ Dict.keys p.edge, a ∈ Dict.keys p.rel

/-- The word meets all conditions. -/
def meets (rx : String → String → Bool) (c : Attrs) (w : Word) : Bool := c.all (fun e => rx e.2 (w.val e.1))

/-- A column of a word as it is shown: the group of the regular expression. -/
def column (grp : String → String → Nat → Option String) (c : Attrs) (w : Word) (e : String × Nat) : String :=
  groupText grp ((Dict.get? c e.1).getD "") (w.val e.1) e.2

/-- Several columns. -/
def columnsText (grp : String → String → Nat → Option String) (connector : String) (c : Attrs) (as : Dict String Nat) (w : Word) : String :=
  connector.intercalate (as.map (column grp c w))

/-- The target of a head and its dependent. -/
def Relation1.pick (p : Relation1) (e : Word × Word) : Word := if p.onDep then e.2 else e.1

/-- The columns of a word that are looked up among the targets of the handler. -/
def Relation1.key (p : Relation1) (w : Word) : String :=
  p.connector.intercalate ((p.target.keys.filter (fun a => !isTokenAttr a)).map w.val)

/-- The row that a target is counted in; for tokens `file` is the name of the file, which is put in together with the line number. -/
def Relation1.row (grp : String → String → Nat → Option String) (file : Option String) (p : Relation1) (w : Word) : String :=
  p.connector.intercalate (p.target.filterMap (fun e =>
    if isTokenAttr e.1 then file.map (fun n => if e.1 = "lid" then toString w.lid else n) else some (column grp p.ofTarget w e)))

/-- The column: head, relation and dependent, the target being hidden. -/
def Relation1.col (grp : String → String → Nat → Option String) (p : Relation1) (e : Word × Word) : String :=
  if p.onDep then columnsText grp p.connector p.head p.node e.1 ++ "->" ++ columnsText grp p.connector p.rel p.edge e.2 ++ ":#T#"
  else "#T#->" ++ columnsText grp p.connector p.rel p.edge e.2 ++ ":" ++ columnsText grp p.connector p.dep p.node e.2

/-- The words of a sentence that have their head in it, with their heads. -/
def headed (ws : List Word) : List (Word × Word) := ws.flatMap (fun w => (ws.filter (fun h => h.id == w.head)).map (fun h => (h, w)))

/-- A head and its dependent that the template counts. -/
def Relation1.counts (rx : String → String → Bool) (targets : List String) (p : Relation1) (e : Word × Word) : Bool :=
  meets rx p.head e.1 && meets rx p.dep e.2 && meets rx p.rel e.2 && targets.contains (p.key (p.pick e))

/-- How often the template gives row `t` and column `c` in a sentence; sentences that do not hang together are left out. -/
noncomputable def Relation1.inSentence (rx : String → String → Bool) (grp : String → String → Nat → Option String) (targets : List String)
    (file : Option String) (p : Relation1) (t c : String) (ws : List Word) : Nat :=
  open Classical in
  if HangsTogether ws then (headed ws).countP (fun e => p.counts rx targets e && (p.row grp file (p.pick e) == t && p.col grp e == c)) else 0

/-- How often the templates give it in the files. -/
noncomputable def relationCount (rx : String → String → Bool) (grp : String → String → Nat → Option String) (targets : List String) (tok : Bool)
    (sents : CorpusFile → List (List Word)) (files : List CorpusFile) (ps : List Relation1) (t c : String) : Nat :=
  (ps.map (fun p => (files.map (fun file => ((sents file).map (p.inSentence rx grp targets (fileId tok file) t c)).sum)).sum)).sum

/-! ## Proofs -/

section
variable {rx : String → String → Bool} {grp : String → String → Nat → Option String} {f : LineFormat} {ea : List String} {tok : Bool}
  {p : Relation1} {ws : List Word} {g : Graph}

theorem Relation1.edge_iff {u v : Nat} : HasEdge p.macro.graph u v ↔ u = 1 ∧ v = 2 := by
  unfold HasEdge
  have : p.macro.graph.edges.keys = [(1, 2)] := rfl
  rw [this, List.mem_singleton, Prod.mk.injEq]

theorem Relation1.nodes_keys : p.macro.graph.nodes.keys = [1, 2] := rfl

theorem Relation1.tree : RootedTree p.macro.graph 1 := by
  refine ⟨by unfold Dict.WF; rw [Relation1.nodes_keys]; decide, ?_, ?_, by rw [Relation1.nodes_keys]; decide, ?_, ?_, ?_⟩
  · unfold Dict.WF
    have : p.macro.graph.edges.keys = [(1, 2)] := rfl
    rw [this]
    decide
  · intro u v h
    rw [Relation1.edge_iff] at h
    rw [Relation1.nodes_keys, h.1, h.2]
    decide
  · intro u h
    rw [Relation1.edge_iff] at h
    cases h.2
  · intro u u' v h h'
    rw [Relation1.edge_iff] at h h'
    rw [h.1, h'.1]
  · intro v hv
    rw [Relation1.nodes_keys] at hv
    simp only [List.mem_cons, List.not_mem_nil, or_false] at hv
    rcases hv with rfl | rfl
    · exact .refl
    · exact .single (Relation1.edge_iff.2 ⟨rfl, rfl⟩)

theorem Relation1.get_one : Dict.get? p.macro.graph.nodes 1 = some p.head := rfl
theorem Relation1.get_two : Dict.get? p.macro.graph.nodes 2 = some p.dep := rfl
theorem Relation1.get_edge : Dict.get? p.macro.graph.edges (1, 2) = some p.rel := rfl

theorem Relation1.nodes_cases {x : Nat} {pat : Attrs} (h : Dict.get? p.macro.graph.nodes x = some pat) :
    x = 1 ∧ pat = p.head ∨ x = 2 ∧ pat = p.dep := by
  have hk : x ∈ p.macro.graph.nodes.keys := (Dict.get?_isSome_iff _ _).1 (by rw [h]; rfl)
  rw [Relation1.nodes_keys] at hk
  simp only [List.mem_cons, List.not_mem_nil, or_false] at hk
  rcases hk with rfl | rfl
  · rw [Relation1.get_one] at h; cases h; exact .inl ⟨rfl, rfl⟩
  · rw [Relation1.get_two] at h; cases h; exact .inr ⟨rfl, rfl⟩

theorem Relation1.edges_cases {e : Nat × Nat} {pat : Attrs} (h : Dict.get? p.macro.graph.edges e = some pat) : e = (1, 2) ∧ pat = p.rel := by
  have hk : HasEdge p.macro.graph e.1 e.2 := (Dict.get?_isSome_iff _ _).1 (by rw [h]; rfl)
  obtain ⟨h1, h2⟩ := Relation1.edge_iff.1 hk
  have he : e = (1, 2) := Prod.ext h1 h2
  subst he
  rw [Relation1.get_edge] at h
  cases h
  exact ⟨rfl, rfl⟩

theorem Relation1.depth_eq : getDepth p.macro.graph = .ok p.macro.depth := rfl

theorem Relation1.Good.macro (G : p.Good f ea tok) : GoodMacro f ea p.macro where
  tree := ⟨1, Relation1.tree⟩
  one := by rw [Relation1.nodes_keys]; decide
  depth := Relation1.depth_eq
  target := by
    rw [Relation1.nodes_keys]
    show (if p.onDep then 2 else 1) ∈ [1, 2]
    split <;> decide
  targetAttrs := by
    intro a ha ht
    have := G.target a ha ht
    unfold Relation1.ofTarget at this
    apply (G.nodes a _).2
    rw [List.mem_append]
    split at this
    · exact .inr this
    · exact .inl this
  nodes := by
    intro x pat h
    rcases Relation1.nodes_cases h with ⟨rfl, rfl⟩ | ⟨rfl, rfl⟩
    · exact ⟨G.asks.1, fun a ha => G.nodes a (List.mem_append_left _ ha)⟩
    · exact ⟨G.asks.2.1, fun a ha => G.nodes a (List.mem_append_right _ ha)⟩
  edges := by
    intro x pat h
    obtain ⟨rfl, rfl⟩ := Relation1.edges_cases h
    exact ⟨G.asks.2.2, G.edges⟩

theorem Relation1.target_pat : Dict.get? p.macro.graph.nodes p.macro.targetIdx = some p.ofTarget := by
  unfold Relation1.ofTarget
  show Dict.get? p.macro.graph.nodes (if p.onDep then 2 else 1) = _
  split <;> rfl

theorem Relation1.Good.readable (G : p.Good f ea tok) : Readable tok p.macro where
  target := by
    intro pat h a ha ht
    rw [Relation1.target_pat] at h
    cases h
    exact G.target a ha ht
  token := G.line
  featNodes := by
    intro x pat h a ha
    rcases Relation1.nodes_cases h with ⟨rfl, rfl⟩ | ⟨rfl, rfl⟩
    · exact (G.node a ha).1
    · exact (G.node a ha).2
  featEdges := by
    intro x pat h a ha
    obtain ⟨rfl, rfl⟩ := Relation1.edges_cases h
    exact G.edge a ha
  feature := by intro i h; cases h

/-- The map from the two nodes to a head and its dependent. -/
def phi (e : Word × Word) (x : Nat) : Option Nat := if x = 1 then some e.1.id else if x = 2 then some e.2.id else none

theorem mem_headed {e : Word × Word} : e ∈ headed ws ↔ e.1 ∈ ws ∧ e.2 ∈ ws ∧ e.1.id = e.2.head := by
  unfold headed
  rw [List.mem_flatMap]
  constructor
  · rintro ⟨w, hw, h⟩
    obtain ⟨x, hx, rfl⟩ := List.mem_map.1 h
    rw [List.mem_filter, beq_iff_eq] at hx
    exact ⟨hx.1, hw, hx.2⟩
  · rintro ⟨h1, h2, h3⟩
    exact ⟨e.2, h2, List.mem_map.2 ⟨e.1, List.mem_filter.2 ⟨h1, by rw [h3]; simp⟩, rfl⟩⟩

theorem headed_nodup (hid : (ws.map Word.id).Nodup) : (headed ws).Nodup := by
  have hn := List.Nodup.of_map _ hid
  unfold headed
  rw [List.nodup_flatMap]
  refine ⟨fun w _ => (hn.filter _).map (fun a b h => (Prod.mk.inj h).1), ?_⟩
  refine hn.imp (fun {a b} hab => ?_)
  intro x hx hy
  obtain ⟨_, _, rfl⟩ := List.mem_map.1 hx
  obtain ⟨_, _, h⟩ := List.mem_map.1 hy
  exact hab (Prod.mk.inj h).2.symm

theorem phi_inj (hid : (ws.map Word.id).Nodup) {e e' : Word × Word} (h : e ∈ headed ws) (h' : e' ∈ headed ws) (he : phi e = phi e') : e = e' := by
  obtain ⟨a1, a2, _⟩ := mem_headed.1 h
  obtain ⟨b1, b2, _⟩ := mem_headed.1 h'
  have e1 : some e.1.id = some e'.1.id := congrFun he 1
  have e2 : some e.2.id = some e'.2.id := congrFun he 2
  exact Prod.ext (List.inj_on_of_nodup_map hid a1 b1 (Option.some.inj e1)) (List.inj_on_of_nodup_map hid a2 b2 (Option.some.inj e2))

/-- Conditions on attributes that an item takes from a word. -/
theorem satisfies_meets {pat item : Attrs} {w : Word} (h : ∀ a ∈ Dict.keys pat, Dict.get? item a = some (w.val a)) :
    Satisfies rx pat item ↔ meets rx pat w = true := by
  unfold Satisfies meets
  rw [List.all_eq_true]
  constructor
  · rintro hs ⟨a, re⟩ hm
    obtain ⟨v, hv, hr⟩ := hs a re hm
    rw [h a (List.mem_map_of_mem hm)] at hv
    cases hv
    exact hr
  · intro hs a re hm
    exact ⟨w.val a, h a (List.mem_map_of_mem hm), hs (a, re) hm⟩

theorem tokenAttr_lid {a : String} (h : isTokenAttr a = false) : a ≠ "lid" ∧ ¬ (a = "FID" ∨ a = "fid") := by
  constructor
  · rintro rfl; revert h; decide
  · rintro (rfl | rfl) <;> (revert h; decide)

theorem word_item (P : Represents f ea ws g) {w : Word} (hw : w ∈ ws) {item : Attrs} (hi : Dict.get? g.nodes w.id = some item) {a : String}
    (ha : isTokenAttr a = false ∧ a ∈ f.columns ∧ a ∈ f.nodeAttr) : Dict.get? item a = some (w.val a) := by
  obtain ⟨b, hb, hc⟩ := P.node w hw
  rw [hi] at hb
  cases hb
  rw [hc, if_neg (tokenAttr_lid ha.1).1, if_pos ha.2]

theorem edge_item (P : Represents f ea ws g) {w : Word} (hw : w ∈ ws) {item : Attrs} (hi : Dict.get? g.edges (w.head, w.id) = some item) {a : String}
    (ha : a ∈ f.columns ∧ a ∈ ea ∧ a ∉ f.nodeAttr) : Dict.get? item a = some (w.val a) := by
  obtain ⟨b, hb, hc⟩ := P.edge w hw
  rw [hi] at hb
  cases hb
  rw [hc, if_pos ha]

/-- The embeddings are the heads with dependents that meet the conditions. -/
theorem Relation1.Good.fits (G : p.Good f ea tok) (P : Represents f ea ws g) (φ : Nat → Option Nat) :
    Fits rx g p.macro.graph φ ↔ ∃ e ∈ headed ws, (meets rx p.head e.1 && meets rx p.dep e.2 && meets rx p.rel e.2) = true ∧ φ = phi e := by
  constructor
  · intro F
    have hd : ∀ x, (φ x).isSome ↔ x = 1 ∨ x = 2 := by
      intro x
      rw [F.dom x, Relation1.nodes_keys]
      simp
    obtain ⟨y, hy⟩ := Option.isSome_iff_exists.1 ((hd 1).2 (.inl rfl))
    obtain ⟨z, hz⟩ := Option.isSome_iff_exists.1 ((hd 2).2 (.inr rfl))
    obtain ⟨ie, hie, se⟩ := F.edge 1 2 y z p.rel Relation1.get_edge hy hz
    obtain ⟨ih, hih, sh⟩ := F.node 1 y p.head hy Relation1.get_one
    obtain ⟨id, hid', sd⟩ := F.node 2 z p.dep hz Relation1.get_two
    have hed : HasEdge g y z := (Dict.get?_isSome_iff _ _).1 (by rw [hie]; rfl)
    obtain ⟨w, hw, rfl, rfl⟩ := (P.edgeIff y z).1 hed
    have hword : ∃ h ∈ ws, h.id = w.head := by
      by_contra hno
      have hb := P.bare w.head ih hih (fun v hv e => hno ⟨v, hv, e.symm⟩)
      subst hb
      obtain ⟨c, cs, hcs⟩ := List.exists_cons_of_ne_nil G.asks.1
      obtain ⟨v, hv, _⟩ := sh c.1 c.2 (by rw [hcs]; simp)
      exact (nomatch hv)
    obtain ⟨h, hh, hhid⟩ := hword
    refine ⟨(h, w), mem_headed.2 ⟨hh, hw, hhid⟩, ?_, ?_⟩
    · rw [Bool.and_eq_true, Bool.and_eq_true]
      refine ⟨⟨(satisfies_meets fun a ha => ?_).1 sh, (satisfies_meets fun a ha => ?_).1 sd⟩, (satisfies_meets fun a ha => ?_).1 se⟩
      · rw [← hhid] at hih
        exact word_item P hh hih (G.nodes a (List.mem_append_left _ ha))
      · exact word_item P hw hid' (G.nodes a (List.mem_append_right _ ha))
      · exact edge_item P hw hie (G.edges a ha)
    · funext x
      unfold phi
      by_cases h1 : x = 1
      · subst h1; rw [if_pos rfl, hy]; exact congrArg some hhid.symm
      · by_cases h2 : x = 2
        · subst h2; rw [if_neg h1, if_pos rfl, hz]
        · rw [if_neg h1, if_neg h2]
          rcases hx : φ x with _ | v
          · rfl
          · exact absurd ((hd x).1 (by rw [hx]; rfl)) (by rintro (h | h); exacts [h1 h, h2 h])
  · rintro ⟨⟨h, w⟩, he, hm, rfl⟩
    obtain ⟨hh, hw, hhid⟩ := mem_headed.1 he
    simp only at hh hw hhid hm
    rw [Bool.and_eq_true, Bool.and_eq_true] at hm
    obtain ⟨⟨m1, m2⟩, m3⟩ := hm
    have p1 : ∀ y, phi (h, w) 1 = some y ↔ y = h.id := fun y => ⟨fun e => (Option.some.inj e).symm, fun e => e ▸ rfl⟩
    have p2 : ∀ y, phi (h, w) 2 = some y ↔ y = w.id := fun y => ⟨fun e => (Option.some.inj e).symm, fun e => e ▸ rfl⟩
    refine ⟨?_, ?_, ?_, ?_⟩
    · intro x
      rw [Relation1.nodes_keys]
      unfold phi
      by_cases h1 : x = 1
      · simp [h1]
      · by_cases h2 : x = 2
        · simp [h2]
        · simp [h1, h2]
    · intro x y pat hx hp
      rcases Relation1.nodes_cases hp with ⟨rfl, rfl⟩ | ⟨rfl, rfl⟩
      · rw [p1] at hx
        subst hx
        obtain ⟨a, ha, _⟩ := P.node h hh
        exact ⟨a, ha, (satisfies_meets fun c hc => word_item P hh ha (G.nodes c (List.mem_append_left _ hc))).2 m1⟩
      · rw [p2] at hx
        subst hx
        obtain ⟨a, ha, _⟩ := P.node w hw
        exact ⟨a, ha, (satisfies_meets fun c hc => word_item P hw ha (G.nodes c (List.mem_append_right _ hc))).2 m2⟩
    · intro x x' y y' pat hp hx hx'
      obtain ⟨he, rfl⟩ := Relation1.edges_cases hp
      cases he
      rw [p1] at hx
      rw [p2] at hx'
      subst hx hx'
      obtain ⟨a, ha, _⟩ := P.edge w hw
      refine ⟨a, by rw [hhid]; exact ha, (satisfies_meets fun c hc => edge_item P hw ha (G.edges c hc)).2 m3⟩
    · intro x y z b h1 h2 _ _
      rw [Relation1.edge_iff] at h1 h2
      rw [h1.2, h2.2]

/-- What a record has of a word. -/
theorem Relation1.Good.rec_node {fid : Option String} {e : Word × Word} {rec : Match} (P : Represents f ea ws g)
    (hrec : Records g p.macro.graph fid (phi e) rec) {x : Nat} {w : Word} (hw : w ∈ ws) (hx : phi e x = some w.id) :
    ∃ b, Dict.get? rec.nodes x = some b ∧ (∀ a, isTokenAttr a = false ∧ a ∈ f.columns ∧ a ∈ f.nodeAttr → Dict.get? b a = some (w.val a)) ∧
      (∀ n, fid = some n → Dict.get? b "lid" = some (toString w.lid) ∧ ∀ a, a = "FID" ∨ a = "fid" → Dict.get? b a = some n) := by
  obtain ⟨item, hi, hc⟩ := P.node w hw
  obtain ⟨b, hb, hbk⟩ := hrec.nodes x w.id item hx hi
  refine ⟨b, hb, fun a ha => ?_, ?_⟩
  · rw [hbk]
    have hv := word_item P hw hi ha
    cases fid with
    | none => exact hv
    | some n => simp only; rw [if_neg (tokenAttr_lid ha.1).2, hv]
  · rintro n rfl
    refine ⟨?_, fun a ha => ?_⟩
    · rw [hbk]
      simp only
      rw [if_neg (by decide), hc, if_pos rfl]
    · rw [hbk]
      simp only
      rw [if_pos ha]

theorem phi_pick {e : Word × Word} : phi e p.macro.targetIdx = some (p.pick e).id := by
  unfold Relation1.pick
  show phi e (if p.onDep then 2 else 1) = _
  split <;> rfl

theorem pick_mem {e : Word × Word} (he : e ∈ headed ws) : p.pick e ∈ ws := by
  obtain ⟨h1, h2, _⟩ := mem_headed.1 he
  unfold Relation1.pick
  split
  · exact h2
  · exact h1

theorem Relation1.Good.target_attr (G : p.Good f ea tok) {a : String} (ha : a ∈ Dict.keys p.target) (ht : isTokenAttr a = false) :
    a ∈ f.columns ∧ a ∈ f.nodeAttr := G.macro.targetAttrs a ha ht

theorem Relation1.Good.targetStr (G : p.Good f ea tok) (P : Represents f ea ws g) {c : CorpusFile} {e : Word × Word} (he : e ∈ headed ws)
    {rec : Match} (hrec : Records g p.macro.graph (fileId tok c) (phi e) rec) :
    targetStr grp tok p.macro rec = .ok (p.row grp (fileId tok c) (p.pick e)) := by
  obtain ⟨b, hb, h1, h2⟩ := Relation1.Good.rec_node P hrec (pick_mem he) phi_pick
  unfold Verif.Dep.targetStr
  rw [getD_ok Relation1.target_pat, getD_ok hb]
  simp only [bind, Except.bind]
  have hm : p.macro.targetAttrs.mapM (targetAttr grp tok p.ofTarget b) = .ok (p.target.map (fun x =>
      if isTokenAttr x.1 then (fileId tok c).map (fun n => if x.1 = "lid" then toString (p.pick e).lid else n)
      else some (column grp p.ofTarget (p.pick e) x))) := by
    apply mapM_ok
    intro x hx
    have hk : x.1 ∈ Dict.keys p.target := List.mem_map_of_mem hx
    unfold targetAttr
    cases ht : isTokenAttr x.1 with
    | true =>
      simp only [if_true]
      cases htok : tok with
      | false => rfl
      | true =>
        subst htok
        simp only [if_true]
        obtain ⟨l1, l2⟩ := h2 c.base rfl
        have hL := G.line rfl
        have hcase : x.1 = "lid" ∨ x.1 = "FID" ∨ x.1 = "fid" := by
          unfold isTokenAttr at ht
          simp only [Bool.or_eq_true, beq_iff_eq] at ht
          rcases ht with ((h | h) | h) | h
          · exact .inr (.inl h)
          · exact absurd (h ▸ hk) hL
          · exact .inr (.inr h)
          · exact .inl h
        rcases hcase with h | h
        · rw [h, getD_ok l1]; rfl
        · have hne : x.1 ≠ "lid" := by
            rcases h with h | h <;> (rw [h]; decide)
          rw [getD_ok (l2 x.1 h)]
          simp only [bind, Except.bind, fileId, if_true, Option.map_some, if_neg hne]
    | false =>
      simp only [Bool.false_eq_true, if_false]
      have hp := G.target x.1 hk ht
      have hv := h1 x.1 ⟨ht, G.target_attr hk ht⟩
      rw [attrRepr_eq hp ((Dict.get?_isSome_iff _ _).1 (by rw [hv]; rfl))]
      simp only [bind, Except.bind, valueOf, Option.bind_some, hv, Option.getD_some]
      rfl
  rw [hm]
  show Except.ok _ = Except.ok _
  unfold Relation1.row
  rw [List.filterMap_map]
  rfl

theorem Relation1.Good.nodeText (G : p.Good f ea tok) (P : Represents f ea ws g) {fid : Option String} {e : Word × Word}
    {rec : Match} (hrec : Records g p.macro.graph fid (phi e) rec) {x : Nat} {w : Word} (hw : w ∈ ws) (hx : phi e x = some w.id) {pat : Attrs}
    (hp : Dict.get? p.macro.graph.nodes x = some pat) :
    nodeText grp p.macro rec x = columnsText grp p.connector pat p.node w := by
  obtain ⟨b, hb, h1, _⟩ := Relation1.Good.rec_node P hrec hw hx
  unfold Verif.Dep.nodeText columnsText
  congr 1
  apply List.map_congr_left
  intro a ha
  have hk : a.1 ∈ Dict.keys p.node := List.mem_map_of_mem ha
  have hn := G.nodes a.1 (List.mem_append_left _ (G.node a.1 hk).1)
  unfold column valueOf
  rw [hp, hb]
  simp only [Option.bind_some, h1 a.1 hn, Option.getD_some]

theorem Relation1.Good.edgeText (G : p.Good f ea tok) (P : Represents f ea ws g) {fid : Option String} {e : Word × Word} (he : e ∈ headed ws)
    {rec : Match} (hrec : Records g p.macro.graph fid (phi e) rec) :
    edgeText grp p.macro rec (1, 2) = columnsText grp p.connector p.rel p.edge e.2 := by
  obtain ⟨_, hw, hh⟩ := mem_headed.1 he
  obtain ⟨item, hi, _⟩ := P.edge e.2 hw
  have hr : Dict.get? rec.edges (1, 2) = some item := by
    rw [hrec.edges 1 2 e.1.id e.2.id (Relation1.edge_iff.2 ⟨rfl, rfl⟩) rfl rfl, hh]
    exact hi
  unfold Verif.Dep.edgeText columnsText
  congr 1
  apply List.map_congr_left
  intro a ha
  have hk : a.1 ∈ Dict.keys p.edge := List.mem_map_of_mem ha
  unfold column valueOf
  rw [Relation1.get_edge, hr]
  simp only [Option.bind_some, edge_item P hw hi (G.edges a.1 (G.edge a.1 hk)), Option.getD_some]

theorem Relation1.Good.featureStr (G : p.Good f ea tok) (P : Represents f ea ws g) {c : CorpusFile} {e : Word × Word} (he : e ∈ headed ws)
    (F : Fits rx g p.macro.graph (phi e)) {rec : Match} (hrec : Records g p.macro.graph (fileId tok c) (phi e) rec) :
    featureStr grp p.macro rec = .ok (p.col grp e) := by
  obtain ⟨hh, hw, _⟩ := mem_headed.1 he
  have C := complete_of_records Relation1.tree G.macro G.readable F hrec
  have n1 := nodeRepr_eq (grp := grp) C (v := 1) (by rw [Relation1.nodes_keys]; decide)
  have n2 := nodeRepr_eq (grp := grp) C (v := 2) (by rw [Relation1.nodes_keys]; decide)
  have e1 := edgeRepr_eq (grp := grp) C (e := (1, 2)) (Relation1.edge_iff.2 ⟨rfl, rfl⟩)
  rw [G.nodeText P hrec hh rfl Relation1.get_one] at n1
  rw [G.nodeText P hrec hw rfl Relation1.get_two] at n2
  rw [G.edgeText P he hrec] at e1
  have hrest : preorder grp p.macro rec 2 2 = .ok "" := rfl
  have hpre : preorder grp p.macro rec 3 1 = (do
      let one ← shownOne grp p.macro rec 1 2
      let rest ← preorder grp p.macro rec 2 2
      .ok ("->" ++ one ++ rest)) := rfl
  have hT : p.macro.targetIdx = if p.onDep then 2 else 1 := rfl
  have hone : shownOne grp p.macro rec 1 2 = .ok (if 2 = p.macro.targetIdx then colon (columnsText grp p.connector p.rel p.edge e.2) "#T#"
      else colon (columnsText grp p.connector p.rel p.edge e.2) (columnsText grp p.connector p.dep p.node e.2)) := by
    unfold shownOne
    rw [e1, n2]
    rfl
  rw [hone, hrest] at hpre
  simp only [bind, Except.bind] at hpre
  have hin : 1 ∈ p.macro.graph.nodes.keys := by rw [Relation1.nodes_keys]; decide
  have hlen : p.macro.graph.nodes.length + 1 = 3 := rfl
  show featureFull grp p.macro rec = _
  unfold featureFull
  simp only [if_pos hin, hlen, hpre, n1]
  rw [hT]
  unfold Relation1.col colon
  cases p.onDep with
  | true =>
    simp only [if_true]
    rw [if_neg (by decide)]
    have h5 : (":" : String) ++ "#T#" = ":#T#" := by decide
    simp only [bind, Except.bind, String.append_empty, String.append_assoc, h5]
  | false =>
    simp only [Bool.false_eq_true, if_false, if_true]
    rw [if_neg (by decide)]
    have h6 : ("#T#->" : String) = "#T#" ++ "->" := by decide
    simp only [bind, Except.bind, String.append_empty, String.append_assoc, h6]

/-- The filter looks at the key. -/
theorem Relation1.Good.rawTarget (G : p.Good f ea tok) (P : Represents f ea ws g) {e : Word × Word} (he : e ∈ headed ws) :
    rawTarget g p.macro (phi e) = p.key (p.pick e) := by
  unfold Verif.Dep.rawTarget Relation1.key
  show String.intercalate p.connector _ = _
  congr 1
  apply List.map_congr_left
  intro a ha
  have ha : a ∈ List.filter (fun a => !isTokenAttr a) (Dict.keys p.target) := ha
  rw [List.mem_filter, Bool.not_eq_true'] at ha
  obtain ⟨item, hi, _⟩ := P.node _ (pick_mem (p := p) he)
  unfold valueOf
  rw [phi_pick, Option.bind_some, hi, Option.bind_some, word_item P (pick_mem he) hi ⟨ha.2, G.target_attr ha.1 ha.2⟩]
  rfl

theorem countP_forall₂ {α β : Type} {R : α → β → Prop} {a : α → Bool} {b : β → Bool} {l : List α} {l' : List β} (h : List.Forall₂ R l l')
    (hr : ∀ x ∈ l, ∀ y, R x y → b y = a x) : l'.countP b = l.countP a := by
  induction h with
  | nil => rfl
  | cons hxy _ ih =>
    rw [List.countP_cons, List.countP_cons, ih (fun x hx => hr x (List.mem_cons_of_mem _ hx)), hr _ (List.mem_cons_self ..) _ hxy]

/-- What a sentence adds to the matches of the template. -/
theorem Relation1.Good.sentence {istree : Graph → Bool} (hist : ∀ g, istree g = true ↔ IsTree g) (G : p.Good f ea tok) {c : CorpusFile} (hs : GoodSentence f ws) {targets : List String}
    {recs : List Match} (h : SentenceAdds rx istree f ea (fileId tok c) { p.macro with filter := some targets } ws recs) (t ft : String) :
    recs.countP (hasStrings grp tok p.macro t ft) = p.inSentence rx grp targets (fileId tok c) t ft ws := by
  classical
  obtain ⟨g, _, P, hno, hyes⟩ := h
  have hT := C69_tree_exact P hs.nonempty hs.ids
  unfold Relation1.inSentence
  by_cases ht : HangsTogether ws
  · rw [if_pos ht]
    obtain ⟨maps, hn, hf, hr⟩ := hyes ((hist g).2 (hT.2 ht))
    have hf : ∀ φ, φ ∈ maps.map Dict.get? ↔ Fits rx g p.macro.graph φ := hf
    have hr : List.Forall₂ (fun d rec => Records g p.macro.graph (fileId tok c) (Dict.get? d) rec)
        (maps.filter (keeps g { p.macro with filter := some targets })) recs := hr
    have hperm : (maps.map Dict.get?).Perm (((headed ws).filter (fun e => meets rx p.head e.1 && meets rx p.dep e.2 && meets rx p.rel e.2)).map phi) := by
      rw [List.perm_ext_iff_of_nodup hn]
      · intro φ
        rw [hf, G.fits P, List.mem_map]
        constructor
        · rintro ⟨e, he, hm, rfl⟩; exact ⟨e, List.mem_filter.2 ⟨he, hm⟩, rfl⟩
        · rintro ⟨e, he, rfl⟩; obtain ⟨he, hm⟩ := List.mem_filter.1 he; exact ⟨e, he, hm, rfl⟩
      · exact ((headed_nodup hs.ids).filter _).map_on
          (fun a ha b hb he => phi_inj hs.ids (List.mem_filter.1 ha).1 (List.mem_filter.1 hb).1 he)
    let Q : (Nat → Option Nat) → Bool := fun φ => decide (∃ e ∈ headed ws, φ = phi e ∧ p.row grp (fileId tok c) (p.pick e) = t ∧ p.col grp e = ft)
    let K : (Nat → Option Nat) → Bool := fun φ => decide (Verif.Dep.rawTarget g p.macro φ ∈ targets)
    have hQ : ∀ e ∈ headed ws, Q (phi e) = (p.row grp (fileId tok c) (p.pick e) == t && p.col grp e == ft) := by
      intro e he
      rw [Bool.eq_iff_iff, Bool.and_eq_true, beq_iff_eq, beq_iff_eq, decide_eq_true_eq]
      constructor
      · rintro ⟨e', he', h, h1, h2⟩
        rw [phi_inj hs.ids he he' h]
        exact ⟨h1, h2⟩
      · rintro ⟨h1, h2⟩
        exact ⟨e, he, rfl, h1, h2⟩
    have hrecs : recs.countP (hasStrings grp tok p.macro t ft) =
        (maps.filter (keeps g { p.macro with filter := some targets })).countP (fun d => Q (Dict.get? d)) := by
      apply countP_forall₂ hr
      intro d hd rec hrec
      have F := (hf (Dict.get? d)).1 (List.mem_map_of_mem (List.mem_filter.1 hd).1)
      obtain ⟨e, he, _, hφ⟩ := (G.fits P _).1 F
      rw [hφ] at hrec F
      rw [hφ, hQ e he]
      unfold hasStrings
      rw [G.targetStr P he hrec, G.featureStr P he F hrec, Bool.eq_iff_iff]
      simp
    rw [hrecs, List.countP_filter]
    have hK : ∀ d : Dict Nat Nat, keeps g { p.macro with filter := some targets } d = K (Dict.get? d) := fun _ => rfl
    have hmap : maps.countP (fun d => Q (Dict.get? d) && keeps g { p.macro with filter := some targets } d) =
        (maps.map Dict.get?).countP (fun φ => Q φ && K φ) := by
      rw [List.countP_map]
      rfl
    rw [hmap, hperm.countP_eq, List.countP_map, List.countP_filter]
    apply List.countP_congr
    intro e he
    simp only [Function.comp]
    rw [hQ e he]
    have hk : K (phi e) = targets.contains (p.key (p.pick e)) := by
      show decide (Verif.Dep.rawTarget g p.macro (phi e) ∈ targets) = _
      rw [G.rawTarget P he, Bool.eq_iff_iff]
      simp
    rw [hk]
    unfold Relation1.counts
    simp only [Bool.and_eq_true]
    tauto
  · rw [if_neg ht, hno]
    · rfl
    · have := (hist g).not.2 (fun h => ht (hT.1 h))
      simpa using this

/-- The counts of all templates in all files, from the collected matches. -/
theorem relation_found {istree : Graph → Bool} (hist : ∀ g, istree g = true ↔ IsTree g) (S : DepSettings f ea) {files : List CorpusFile}
    {sents : CorpusFile → List (List Word)} (hf : ∀ c ∈ files, readSentence f c.lines = (sents c).map linesOf)
    (hs : ∀ c ∈ files, ∀ ws ∈ sents c, GoodSentence f ws) {targets : List String} {ps : List Relation1} (hp : ∀ p ∈ ps, p.Good f ea tok)
    {W : Nat} {acc : Nat → List Match} (hcall : DepCall (depFound rx istree f tok targets (ps.map Relation1.macro)) W files (fun _ => []) acc)
    {i : Nat} {p : Relation1} (hi : ps[i]? = some p) :
    (∀ t ft, (acc i).countP (hasStrings grp tok p.macro t ft) =
      (files.map (fun file => ((sents file).map (p.inSentence rx grp targets (fileId tok file) t ft)).sum)).sum) ∧
    ∀ mt ∈ acc i, ∃ t ft, hasStrings grp tok p.macro t ft mt = true := by
  have hG : ∀ m ∈ ps.map Relation1.macro, GoodMacro f ea m := by
    intro m hm
    obtain ⟨p, hp', rfl⟩ := List.mem_map.1 hm
    exact (hp p hp').macro
  have h0 : ∀ m ∈ ps.map Relation1.macro, m.found = [] := by
    intro m hm
    obtain ⟨p, _, rfl⟩ := List.mem_map.1 hm
    rfl
  have hpp := hp p (List.mem_of_getElem? hi)
  have hm : (ps.map Relation1.macro)[i]? = some p.macro := by rw [List.getElem?_map, hi]; rfl
  have hperm := (C06_first_call (κ := String) _ W files acc hcall).1 i
  constructor
  · intro t ft
    rw [hperm.countP_eq, List.countP_flatMap]
    congr 1
    apply List.map_congr_left
    intro c hc
    obtain ⟨parts, h1, h2⟩ := depFound_spec (rx := rx) (istree := istree) (tok := tok) S c (hf c hc) (hs c hc) targets _ hG h0 hm
    show List.countP _ (depFound rx istree f tok targets _ c i) = _
    rw [h2, List.countP_flatten]
    congr 1
    have hss := hs c hc
    clear h2
    generalize sents c = ss at h1 hss ⊢
    induction h1 with
    | nil => rfl
    | cons h _ ih =>
      rw [List.map_cons, List.map_cons, ih (fun ws hws => hss ws (List.mem_cons_of_mem _ hws)),
        hpp.sentence hist (hss _ (List.mem_cons_self ..)) h]
  · intro mt hmt
    obtain ⟨c, hc, hmt⟩ := List.mem_flatMap.1 (hperm.mem_iff.1 hmt)
    obtain ⟨parts, h1, h2⟩ := depFound_spec (rx := rx) (istree := istree) (tok := tok) S c (hf c hc) (hs c hc) targets _ hG h0 hm
    have hmt : mt ∈ depFound rx istree f tok targets (ps.map Relation1.macro) c i := hmt
    rw [h2] at hmt
    obtain ⟨l, hl, hmt⟩ := List.mem_flatten.1 hmt
    obtain ⟨ws, hadd⟩ : ∃ ws, SentenceAdds rx istree f ea (fileId tok c) { p.macro with filter := some targets } ws l := by
      generalize sents c = ss at h1
      clear * - h1 hl
      induction h1 with
      | nil => cases hl
      | cons h _ ih =>
        rcases List.mem_cons.1 hl with rfl | h'
        · exact ⟨_, h⟩
        · exact ih h'
    have GM := hpp.macro
    have R := hpp.readable
    obtain ⟨⟨t, ft⟩, hpair⟩ := pairOf_ok grp (m := { p.macro with filter := some targets })
      ⟨GM.tree, GM.one, GM.depth, GM.target, GM.targetAttrs, GM.nodes, GM.edges⟩ ⟨R.target, R.token, R.featNodes, R.featEdges, R.feature⟩ hadd mt hmt
    have e2 := pairOf_found grp tok p.macro (some targets) p.macro.found mt
    have hq : pairOf grp tok p.macro mt = .ok (t, ft) := e2.symm.trans hpair
    refine ⟨t, ft, ?_⟩
    rw [← pairOf_match, hq]
    simp [okAnd]

theorem sum_zero {l : List Nat} (h : l.sum = 0) : ∀ n ∈ l, n = 0 := by
  induction l with
  | nil => intro n hn; cases hn
  | cons a l ih =>
    rw [List.sum_cons] at h
    intro n hn
    rcases List.mem_cons.1 hn with rfl | hn
    · omega
    · exact ih (by omega) n hn

/-- Rows and columns of a matrix of matches are those with matches. -/
theorem matchMatrix_items {ms : List Macro} {mtx : Mtx String Int} (h : matchMatrix grp tok ms = .ok mtx) :
    mtx.rows.Pairwise (· ≤ ·) ∧ mtx.cols.Pairwise (· ≤ ·) ∧ (∀ t, t ∈ mtx.rows ↔ ∃ ft, entry mtx t ft ≠ 0) ∧
      ∀ ft, ft ∈ mtx.cols ↔ ∃ t, entry mtx t ft ≠ 0 := by
  unfold matchMatrix at h
  cases hps : matchPairs grp tok ms with
  | error e => rw [hps] at h; cases h
  | ok ps =>
    rw [hps] at h
    simp only [bind, Except.bind] at h
    have hne : ps ≠ [] := by
      rintro rfl
      rw [C67_none] at h
      cases h
    obtain ⟨m, h1, _, _, ⟨h2, h3⟩, ⟨h4, h5⟩, h6⟩ := C67_counts ps hne
    rw [h1] at h
    cases h
    have hz : ∀ t ft, (t, ft) ∈ ps ↔ entry mtx t ft ≠ 0 := by
      intro t ft
      rw [h6]
      have : List.countP (fun q => decide (q = (t, ft))) ps ≠ 0 ↔ (t, ft) ∈ ps := by
        rw [← Nat.pos_iff_ne_zero, List.countP_pos_iff]
        simp
      rw [← this]
      simp
    exact ⟨h2, h4, fun t => by rw [h3]; simp only [hz], fun ft => by rw [h5]; simp only [hz]⟩

/-- **C194.** `build_dependency` with templates for one relation, for every number of workers and every schedule: if the templates count
something in the corpus, the result is the matrix whose rows and columns are the targets and features that occur, sorted, and whose
entries count the words with their heads; if they count nothing, it raises `ValueError`.  `istree` is what networkx documents. -/
theorem C194_partial {istree : Graph → Bool} (hist : ∀ g, istree g = true ↔ IsTree g) (S : DepSettings f ea) {files : List CorpusFile}
    {sents : CorpusFile → List (List Word)} (hf : ∀ c ∈ files, readSentence f c.lines = (sents c).map linesOf)
    (hs : ∀ c ∈ files, ∀ ws ∈ sents c, GoodSentence f ws) (targets : List String) {ps : List Relation1} (hp : ∀ p ∈ ps, p.Good f ea tok)
    {W : Nat} {acc : Nat → List Match} (hcall : DepCall (depFound rx istree f tok targets (ps.map Relation1.macro)) W files (fun _ => []) acc) :
    ((∃ t c, relationCount rx grp targets tok sents files ps t c ≠ 0) →
      ∃ mtx, matchMatrix grp tok (withFound (ps.map Relation1.macro) acc) = .ok mtx ∧ Valid mtx ∧
        mtx.rows.Pairwise (· ≤ ·) ∧ mtx.cols.Pairwise (· ≤ ·) ∧
        (∀ t, t ∈ mtx.rows ↔ ∃ c, relationCount rx grp targets tok sents files ps t c ≠ 0) ∧
        (∀ c, c ∈ mtx.cols ↔ ∃ t, relationCount rx grp targets tok sents files ps t c ≠ 0) ∧
        ∀ t c, entry mtx t c = (relationCount rx grp targets tok sents files ps t c : Nat)) ∧
    ((∀ t c, relationCount rx grp targets tok sents files ps t c = 0) →
      matchMatrix grp tok (withFound (ps.map Relation1.macro) acc) = .error .valueError) := by
  have hmz : ∀ e ∈ ps.zipIdx, ps[e.2]? = some e.1 := by
    intro e he
    obtain ⟨_, h, he'⟩ := List.mem_zipIdx he
    rw [List.getElem?_eq_getElem (by omega)]
    simp only [Nat.sub_zero] at he'
    rw [he']
  have hW : withFound (ps.map Relation1.macro) acc = ps.zipIdx.map (fun e => { e.1.macro with found := acc e.2 }) := by
    unfold withFound
    rw [List.zipIdx_map, List.map_map]
    rfl
  have hall : ∀ e ∈ ps.zipIdx, ∀ mt ∈ acc e.2, ∃ q, pairOf grp tok { e.1.macro with found := acc e.2 } mt = .ok q := by
    intro e he mt hmt
    obtain ⟨t, ft, h⟩ := (relation_found (grp := grp) hist S hf hs hp hcall (hmz e he)).2 mt hmt
    rw [← pairOf_match] at h
    refine ⟨(t, ft), (pairOf_found grp tok e.1.macro e.1.macro.filter (acc e.2) mt).trans ?_⟩
    show pairOf grp tok e.1.macro mt = _
    unfold okAnd at h
    split at h
    · rename_i y hy
      rw [hy]
      simp only [decide_eq_true_eq] at h
      rw [h]
    · cases h
  have hok : ∃ qs, matchPairs grp tok (withFound (ps.map Relation1.macro) acc) = .ok qs := by
    have : ∀ m ∈ withFound (ps.map Relation1.macro) acc, ∃ l, macroPairs grp tok m = .ok l := by
      intro m hm
      rw [hW] at hm
      obtain ⟨e, he, rfl⟩ := List.mem_map.1 hm
      exact mapM_all_ok _ _ (hall e he)
    obtain ⟨l, hl⟩ := mapM_all_ok _ _ this
    refine ⟨l.flatten, ?_⟩
    unfold matchPairs
    rw [hl]
    rfl
  have hcount : ∀ t ft, ((withFound (ps.map Relation1.macro) acc).map (fun m => m.found.countP (hasStrings grp tok m t ft))).sum =
      relationCount rx grp targets tok sents files ps t ft := by
    intro t ft
    rw [hW, List.map_map]
    unfold relationCount
    conv_rhs => rw [← List.zipIdx_map_fst 0 ps, List.map_map]
    congr 1
    apply List.map_congr_left
    intro e he
    show (acc e.2).countP (hasStrings grp tok { e.1.macro with found := acc e.2 } t ft) = _
    rw [hasStrings_found, (relation_found (grp := grp) hist S hf hs hp hcall (hmz e he)).1]
    rfl
  constructor
  · rintro ⟨t, c, hne⟩
    have hfound : ∃ m ∈ withFound (ps.map Relation1.macro) acc, m.found ≠ [] := by
      by_contra hno
      apply hne
      rw [← hcount]
      apply List.sum_eq_zero
      intro n hn
      obtain ⟨m, hm, rfl⟩ := List.mem_map.1 hn
      have : m.found = [] := by
        by_contra h
        exact hno ⟨m, hm, h⟩
      rw [this]
      rfl
    obtain ⟨mtx, h1, h2, _, _, _, _, h7⟩ := C67_partial grp tok _ hok hfound
    obtain ⟨i1, i2, i3, i4⟩ := matchMatrix_items h1
    have hent : ∀ t c, entry mtx t c = (relationCount rx grp targets tok sents files ps t c : Nat) := fun t c => by rw [h7, hcount]
    refine ⟨mtx, h1, h2, i1, i2, fun t => ?_, fun c => ?_, hent⟩
    · rw [i3]
      simp only [hent, ne_eq, Int.natCast_eq_zero]
    · rw [i4]
      simp only [hent, ne_eq, Int.natCast_eq_zero]
  · intro hz
    apply C67_false_none
    intro m hm
    by_contra hne
    obtain ⟨mt, l, hl⟩ := List.exists_cons_of_ne_nil hne
    rw [hW] at hm
    obtain ⟨e, he, rfl⟩ := List.mem_map.1 hm
    have hmt : mt ∈ acc e.2 := by
      have : acc e.2 = mt :: l := hl
      rw [this]
      exact List.mem_cons_self ..
    obtain ⟨t, ft, h⟩ := (relation_found (grp := grp) hist S hf hs hp hcall (hmz e he)).2 mt hmt
    have h0 := hz t ft
    rw [← hcount, hW, List.map_map] at h0
    have h1 := sum_zero h0 _ (List.mem_map_of_mem he)
    have h1 : (acc e.2).countP (hasStrings grp tok { e.1.macro with found := acc e.2 } t ft) = 0 := h1
    rw [hasStrings_found, List.countP_eq_zero] at h1
    exact h1 mt hmt h

end

/-- A noun that is the object of a verb; the noun is the target. -/
def objRelation : Relation1 where
  head := [("LEMMA", ".*"), ("POS", "V")]
  dep := [("LEMMA", ".*"), ("POS", "N")]
  rel := [("DEPREL", "obj")]
  onDep := true
  target := [("LEMMA", 1), ("POS", 1)]
  node := [("LEMMA", 1)]
  edge := [("DEPREL", 1)]
  connector := "/"

theorem sample_hangs : HangsTogether sampleWords := by
  refine ⟨0, by decide, fun w hw => ?_⟩
  have h2 : Relation.ReflTransGen (Heads sampleWords) 0 2 := .single ⟨_, List.mem_cons_of_mem _ (List.mem_cons_self ..), rfl, rfl⟩
  simp only [sampleWords, List.mem_cons, List.not_mem_nil, or_false] at hw
  rcases hw with rfl | rfl | rfl
  · exact h2.tail ⟨_, List.mem_cons_self .., rfl, rfl⟩
  · exact h2
  · exact h2.tail ⟨_, List.mem_cons_of_mem _ (List.mem_cons_of_mem _ (List.mem_cons_self ..)), rfl, rfl⟩

/-- C194 on the sample corpus: the hypotheses hold and `apple/N` occurs once as the object of `eat`. -/
example : DepSettings sampleFmt ["DEPREL"] ∧ readSentence sampleFmt sampleFile.lines = [sampleWords].map linesOf ∧ GoodSentence sampleFmt sampleWords ∧
    objRelation.Good sampleFmt ["DEPREL"] false ∧
    relationCount rx0 grp0 ["apple/N"] false (fun _ => [sampleWords]) [sampleFile] [objRelation] "apple/N" "eat->obj:#T#" = 1 := by
  refine ⟨sample_settings, sample_read, sample_sentence, ⟨by decide, by decide, by decide, by decide, by decide, by decide, by decide⟩, ?_⟩
  unfold relationCount
  simp only [List.map_singleton, List.sum_singleton]
  unfold Relation1.inSentence
  rw [if_pos sample_hangs]
  decide +kernel

end Verif.Dep
