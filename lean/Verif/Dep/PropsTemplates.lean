import Verif.Dep.PropsRelation
import Mathlib.Data.Set.Card

set_option linter.unusedSectionVars false

/-!
# C204: the matrix of templates of any shape, from the words of the corpus
-/

namespace Verif.Dep
open Verif.Py Verif.Window Verif.Engine Verif.Matrix Verif.Cooc

/-! ## Specification -/

/-- A column of a word; `lid` is its line number, and in a named file `FID` and `fid` are the name of the file. -/
def Word.shown (file : Option String) (w : Word) (a : String) : String :=
  if a = "lid" then toString w.lid else if a = "FID" ∨ a = "fid" then file.getD (w.val a) else w.val a

/-- The values meet all conditions (regular expressions by column). -/
def meetsBy (rx : String → String → Bool) (c : Attrs) (v : String → String) : Bool := c.all (fun e => rx e.2 (v e.1))

/-- A placement of the nodes of a template on words of a sentence: all nodes are placed; the words meet the conditions of their nodes;
along an edge of the template the word is a dependent of the other word, by a relation that meets the conditions of the edge; nodes
with the same head are on different words. -/
structure Placed (rx : String → String → Bool) (p : Graph) (ws : List Word) (ψ : Nat → Option Word) : Prop where
  dom : ∀ x, (ψ x).isSome ↔ x ∈ p.nodes.keys
  word : ∀ x w, ψ x = some w → w ∈ ws
  node : ∀ x w c, ψ x = some w → p.nodes.get? x = some c → meetsBy rx c w.val = true
  edge : ∀ x x' h w c, p.edges.get? (x, x') = some c → ψ x = some h → ψ x' = some w → w.head = h.id ∧ meetsBy rx c w.val = true
  siblings : ∀ x y z w, HasEdge p x y → HasEdge p x z → ψ y = some w → ψ z = some w → y = z

/-- Something of the word that a node is placed on. -/
def onWord (ψ : Nat → Option Word) (x : Nat) (f : Word → String) : String :=
  match ψ x with
  | some w => f w
  | none => ""

section
variable (grp : String → String → Nat → Option String) (file : Option String) (m : Macro) (ψ : Nat → Option Word)

/-- The columns of the target that are looked up among the targets of the handler. -/
def keyOf : String := m.connector.intercalate ((m.targetAttrs.keys.filter (fun a => !isTokenAttr a)).map (fun a => onWord ψ m.targetIdx (fun w => w.val a)))

/-- The row: the groups of the columns of the target; for tokens also file and line. -/
def rowOf : String :=
  m.connector.intercalate (m.targetAttrs.filterMap (fun e =>
    if isTokenAttr e.1 then file.map (fun _ => onWord ψ m.targetIdx (fun w => w.shown file e.1))
    else some (onWord ψ m.targetIdx (fun w => groupText grp (valueOf (m.graph.nodes.get? m.targetIdx) e.1) (w.val e.1) e.2))))

/-- How a node is shown. -/
def nodeOf (x : Nat) : String :=
  m.connector.intercalate (m.featNodeAttrs.map (fun e =>
    onWord ψ x (fun w => groupText grp (valueOf (m.graph.nodes.get? x) e.1) (w.val e.1) e.2)))

/-- How a relation is shown: it is the relation of the dependent. -/
def edgeOf (x x' : Nat) : String :=
  m.connector.intercalate (m.featEdgeAttrs.map (fun e =>
    onWord ψ x' (fun w => groupText grp (valueOf (m.graph.edges.get? (x, x')) e.1) (w.val e.1) e.2)))

/-- What is shown below a node, down to `n` levels: an only dependent with its relation, the target being hidden; several ones in brackets,
sorted by what is shown of them (if the target were not hidden), the relation of the target up to the first colon. -/
def belowOf : Nat → Nat → String
  | 0, _ => ""
  | n + 1, x =>
    match (m.graph.edges.keys.filter (fun e => decide (e.1 = x))).map (fun e => e.2) with
    | [] => ""
    | [y] => "->" ++ (edgeOf grp m ψ x y ++ ":" ++ (if y = m.targetIdx then "#T#" else nodeOf grp m ψ y)) ++ belowOf n y
    | ys => "->" ++ "[" ++ ",".intercalate ((sortedBy (fun e : Nat × String => e.2)
        (ys.map (fun y => (y, edgeOf grp m ψ x y ++ ":" ++ nodeOf grp m ψ y)))).map (fun e =>
          (if e.1 = m.targetIdx then String.ofList ((edgeOf grp m ψ x e.1).toList.takeWhile (· ≠ ':')) ++ ":" ++ "#T#" else e.2) ++ belowOf n e.1)) ++ "]"

/-- The column: the feature node, or else all that is shown from node 1. -/
def colOf : String :=
  match m.featureIdx with
  | some i => nodeOf grp m ψ i
  | none => (if 1 = m.targetIdx then "#T#" else nodeOf grp m ψ 1) ++ belowOf grp m ψ (m.graph.nodes.length + 1) 1

end

/-- How often a template gives row `t` and column `c` in a sentence; sentences that do not hang together are left out. -/
noncomputable def placedCount (rx : String → String → Bool) (grp : String → String → Nat → Option String) (targets : List String)
    (file : Option String) (m : Macro) (t c : String) (ws : List Word) : Nat :=
  open Classical in
  if HangsTogether ws then Set.ncard {ψ | Placed rx m.graph ws ψ ∧ keyOf m ψ ∈ targets ∧ rowOf grp file m ψ = t ∧ colOf grp m ψ = c} else 0

/-- How often the templates give it in the files. -/
noncomputable def templateCount (rx : String → String → Bool) (grp : String → String → Nat → Option String) (targets : List String) (tok : Bool)
    (sents : CorpusFile → List (List Word)) (files : List CorpusFile) (ms : List Macro) (t c : String) : Nat :=
  (ms.map (fun m => (files.map (fun file => ((sents file).map (placedCount rx grp targets (fileId tok file) m t c)).sum)).sum)).sum

/-! ## Proofs -/

section
variable {rx : String → String → Bool} {grp : String → String → Nat → Option String} {f : LineFormat} {ea : List String} {tok : Bool}
  {m : Macro} {ws : List Word} {g : Graph}

theorem satisfies_meetsBy {pat item : Attrs} {v : String → String} (h : ∀ a ∈ Dict.keys pat, Dict.get? item a = some (v a)) :
    Satisfies rx pat item ↔ meetsBy rx pat v = true := by
  unfold Satisfies meetsBy
  rw [List.all_eq_true]
  constructor
  · rintro hs ⟨a, re⟩ hm
    obtain ⟨u, hv, hr⟩ := hs a re hm
    rw [h a (List.mem_map_of_mem hm)] at hv
    cases hv
    exact hr
  · intro hs a re hm
    exact ⟨v a, h a (List.mem_map_of_mem hm), hs (a, re) hm⟩

theorem shown_none {w : Word} {a : String} : w.shown none a = if a = "lid" then toString w.lid else w.val a := by
  unfold Word.shown
  split_ifs <;> rfl

theorem shown_val {file : Option String} {w : Word} {a : String} (h : isTokenAttr a = false) : w.shown file a = w.val a := by
  obtain ⟨h1, h2⟩ := tokenAttr_lid h
  unfold Word.shown
  rw [if_neg h1, if_neg h2]

theorem word_shown (P : Represents f ea ws g) {w : Word} (hw : w ∈ ws) {item : Attrs} (hi : Dict.get? g.nodes w.id = some item) {a : String}
    (ha : a = "lid" ∨ a ∈ f.columns ∧ a ∈ f.nodeAttr) : Dict.get? item a = some (w.shown none a) := by
  obtain ⟨b, hb, hc⟩ := P.node w hw
  rw [hi] at hb
  cases hb
  rw [hc, shown_none]
  by_cases hl : a = "lid"
  · rw [if_pos hl, if_pos hl]
  · rw [if_neg hl, if_neg hl, if_pos (ha.resolve_left hl)]

theorem word_val (P : Represents f ea ws g) {w : Word} (hw : w ∈ ws) {item : Attrs} (hi : Dict.get? g.nodes w.id = some item) {a : String}
    (ha : isTokenAttr a = false ∧ a ∈ f.columns ∧ a ∈ f.nodeAttr) : Dict.get? item a = some (w.val a) := by
  rw [word_shown P hw hi (.inr ha.2), shown_val ha.1]

/-- The word numbers of a placement. -/
def idsOf (ψ : Nat → Option Word) : Nat → Option Nat := fun x => (ψ x).map Word.id

theorem idsOf_inj (hid : (ws.map Word.id).Nodup) {p p' : Graph} {ψ ψ' : Nat → Option Word} (h : Placed rx p ws ψ) (h' : Placed rx p' ws ψ')
    (e : idsOf ψ = idsOf ψ') : ψ = ψ' := by
  funext x
  have ex := congrFun e x
  unfold idsOf at ex
  cases h1 : ψ x with
  | none =>
    cases h2 : ψ' x with
    | none => rfl
    | some w => rw [h1, h2] at ex; cases ex
  | some w =>
    cases h2 : ψ' x with
    | none => rw [h1, h2] at ex; cases ex
    | some w' =>
      rw [h1, h2] at ex
      rw [List.inj_on_of_nodup_map hid (h.word x w h1) (h'.word x w' h2) (Option.some.inj ex)]

/-- The embeddings are the placements. -/
theorem fits_placed (G : GoodMacro f ea m) (P : Represents f ea ws g) (hid : (ws.map Word.id).Nodup) (φ : Nat → Option Nat) :
    Fits rx g m.graph φ ↔ ∃ ψ, Placed rx m.graph ws ψ ∧ φ = idsOf ψ := by
  obtain ⟨r, T⟩ := G.tree
  have hedge : ∀ {x x' : Nat} {c : Attrs}, m.graph.edges.get? (x, x') = some c → HasEdge m.graph x x' :=
    fun h => (Dict.get?_isSome_iff _ _).1 (by rw [h]; rfl)
  constructor
  · intro F
    have hword : ∀ x y, φ x = some y → ∃ w ∈ ws, w.id = y := by
      intro x y hy
      obtain ⟨pat, hp⟩ := Option.isSome_iff_exists.1 ((Dict.get?_isSome_iff m.graph.nodes x).2 ((F.dom x).1 (by rw [hy]; rfl)))
      obtain ⟨item, hi, hsat⟩ := F.node x y pat hy hp
      by_contra hno
      have hb := P.bare y item hi (fun v hv e => hno ⟨v, hv, e.symm⟩)
      subst hb
      obtain ⟨c, cs, hcs⟩ := List.exists_cons_of_ne_nil (G.nodes x pat hp).1
      obtain ⟨v, hv, _⟩ := hsat c.1 c.2 (by rw [hcs]; simp)
      exact (nomatch hv)
    let ψ : Nat → Option Word := fun x => (φ x).bind (fun y => ws.find? (fun w => w.id == y))
    have hψ : ∀ x w, ψ x = some w → w ∈ ws ∧ φ x = some w.id := by
      intro x w hx
      obtain ⟨y, hy, hfind⟩ := Option.bind_eq_some_iff.1 hx
      have h1 := List.find?_some hfind
      rw [beq_iff_eq] at h1
      exact ⟨List.mem_of_find?_eq_some hfind, by rw [hy, h1]⟩
    have hsome : ∀ x y, φ x = some y → ∃ w, ψ x = some w := by
      intro x y hy
      obtain ⟨w, hw, hwy⟩ := hword x y hy
      apply Option.isSome_iff_exists.1
      show ((φ x).bind _).isSome = true
      rw [hy, Option.bind_some, List.find?_isSome]
      exact ⟨w, hw, by rw [beq_iff_eq]; exact hwy⟩
    have hids : φ = idsOf ψ := by
      funext x
      unfold idsOf
      rcases hx : φ x with _ | y
      · have : ψ x = none := by show (φ x).bind _ = none; rw [hx]; rfl
        rw [this]; rfl
      · obtain ⟨w, hw⟩ := hsome x y hx
        rw [hw, Option.map_some, ← (hψ x w hw).2, hx]
    refine ⟨ψ, ⟨fun x => ?_, fun x w hx => (hψ x w hx).1, fun x w c hx hc => ?_, fun x x' h w c hc hx hx' => ?_, fun x y z w h1 h2 hy hz => ?_⟩, hids⟩
    · rw [← F.dom x, hids]
      unfold idsOf
      rw [Option.isSome_map]
    · obtain ⟨hw, hφ⟩ := hψ x w hx
      obtain ⟨item, hi, hsat⟩ := F.node x w.id c hφ hc
      exact (satisfies_meetsBy fun a ha => word_val P hw hi ((G.nodes x c hc).2 a ha)).1 hsat
    · obtain ⟨hw, hφ⟩ := hψ x h hx
      obtain ⟨hw', hφ'⟩ := hψ x' w hx'
      obtain ⟨item, hi, hsat⟩ := F.edge x x' h.id w.id c hc hφ hφ'
      obtain ⟨v, hv, e1, e2⟩ := (P.edgeIff h.id w.id).1 ((Dict.get?_isSome_iff _ _).1 (by rw [hi]; rfl))
      have hvw : v = w := List.inj_on_of_nodup_map hid hv hw' e2.symm
      subst hvw
      rw [e1] at hi
      exact ⟨e1.symm, (satisfies_meetsBy fun a ha => edge_item P hv hi ((G.edges _ c hc).2 a ha)).1 hsat⟩
    · exact F.siblings x y z w.id h1 h2 (hψ y w hy).2 (hψ z w hz).2
  · rintro ⟨ψ, L, rfl⟩
    have hid' : ∀ x y, idsOf ψ x = some y → ∃ w, ψ x = some w ∧ w.id = y := fun x y h => Option.map_eq_some_iff.1 h
    refine ⟨fun x => ?_, fun x y pat hx hp => ?_, fun x x' y y' pat hp hx hx' => ?_, fun x y z b h1 h2 hy hz => ?_⟩
    · rw [← L.dom x]
      unfold idsOf
      rw [Option.isSome_map]
    · obtain ⟨w, hw, rfl⟩ := hid' x y hx
      obtain ⟨item, hi, _⟩ := P.node w (L.word x w hw)
      exact ⟨item, hi, (satisfies_meetsBy fun a ha => word_val P (L.word x w hw) hi ((G.nodes x pat hp).2 a ha)).2 (L.node x w pat hw hp)⟩
    · obtain ⟨h, hh, rfl⟩ := hid' x y hx
      obtain ⟨w, hw, rfl⟩ := hid' x' y' hx'
      obtain ⟨e, hm⟩ := L.edge x x' h w pat hp hh hw
      obtain ⟨item, hi, _⟩ := P.edge w (L.word x' w hw)
      exact ⟨item, e ▸ hi, (satisfies_meetsBy fun a ha => edge_item P (L.word x' w hw) hi ((G.edges _ pat hp).2 a ha)).2 hm⟩
    · obtain ⟨w, hw, rfl⟩ := hid' y b hy
      obtain ⟨w', hw', e⟩ := hid' z w.id hz
      have := List.inj_on_of_nodup_map hid (L.word z w' hw') (L.word y w hw) e
      subst this
      exact L.siblings x y z w' h1 h2 hw hw'

theorem onWord_some {ψ : Nat → Option Word} {x : Nat} {w : Word} (h : ψ x = some w) (k : Word → String) : onWord ψ x k = k w := by
  unfold onWord; rw [h]

/-- What a record has of the word of a node. -/
theorem placed_node {fid : Option String} {ψ : Nat → Option Word} {rec : Match} (P : Represents f ea ws g) (L : Placed rx m.graph ws ψ)
    (hrec : Records g m.graph fid (idsOf ψ) rec) {x : Nat} {w : Word} (hx : ψ x = some w) :
    ∃ b, Dict.get? rec.nodes x = some b ∧
      ∀ a, (a = "lid" ∨ a ∈ f.columns ∧ a ∈ f.nodeAttr) ∨ (fid.isSome = true ∧ (a = "FID" ∨ a = "fid")) → Dict.get? b a = some (w.shown fid a) := by
  have hw := L.word x w hx
  obtain ⟨item, hi, hc⟩ := P.node w hw
  obtain ⟨b, hb, hbk⟩ := hrec.nodes x w.id item (by unfold idsOf; rw [hx]; rfl) hi
  refine ⟨b, hb, fun a ha => ?_⟩
  rw [hbk]
  cases fid with
  | none =>
    rcases ha with ha | ⟨h, _⟩
    · exact word_shown P hw hi ha
    · cases h
  | some n =>
    simp only
    by_cases hF : a = "FID" ∨ a = "fid"
    · rw [if_pos hF]
      unfold Word.shown
      have : a ≠ "lid" := by rcases hF with rfl | rfl <;> decide
      rw [if_neg this, if_pos hF]
      rfl
    · rw [if_neg hF]
      rcases ha with ha | ⟨_, h⟩
      · rw [word_shown P hw hi ha]
        unfold Word.shown
        split_ifs <;> rfl
      · exact absurd h hF

theorem placed_word {ψ : Nat → Option Word} (L : Placed rx m.graph ws ψ) {x : Nat} (hx : x ∈ m.graph.nodes.keys) : ∃ w, ψ x = some w :=
  Option.isSome_iff_exists.1 ((L.dom x).2 hx)

theorem placed_targetStr (G : GoodMacro f ea m) (R : Readable tok m) (P : Represents f ea ws g) {c : CorpusFile} {ψ : Nat → Option Word} (L : Placed rx m.graph ws ψ)
    {rec : Match} (hrec : Records g m.graph (fileId tok c) (idsOf ψ) rec) :
    targetStr grp tok m rec = .ok (rowOf grp (fileId tok c) m ψ) := by
  obtain ⟨w, hw⟩ := placed_word L G.target
  obtain ⟨pat, hp⟩ := Option.isSome_iff_exists.1 ((Dict.get?_isSome_iff m.graph.nodes m.targetIdx).2 G.target)
  obtain ⟨b, hb, hv⟩ := placed_node P L hrec hw
  unfold targetStr
  rw [getD_ok hp, getD_ok hb]
  simp only [bind, Except.bind]
  have hm : m.targetAttrs.mapM (targetAttr grp tok pat b) = .ok (m.targetAttrs.map (fun e =>
      if isTokenAttr e.1 then (fileId tok c).map (fun _ => onWord ψ m.targetIdx (fun w => w.shown (fileId tok c) e.1))
      else some (onWord ψ m.targetIdx (fun w => groupText grp (valueOf (m.graph.nodes.get? m.targetIdx) e.1) (w.val e.1) e.2)))) := by
    apply mapM_ok
    intro e he
    have hk : e.1 ∈ Dict.keys m.targetAttrs := List.mem_map_of_mem he
    unfold targetAttr
    rw [onWord_some hw, onWord_some hw]
    cases ht : isTokenAttr e.1 with
    | true =>
      simp only [if_true]
      cases htok : tok with
      | false => rfl
      | true =>
        subst htok
        simp only [if_true]
        have hcase : e.1 = "lid" ∨ e.1 = "FID" ∨ e.1 = "fid" := by
          unfold isTokenAttr at ht
          simp only [Bool.or_eq_true, beq_iff_eq] at ht
          rcases ht with ((h | h) | h) | h
          · exact .inr (.inl h)
          · exact absurd (h ▸ hk) (R.token rfl)
          · exact .inr (.inr h)
          · exact .inl h
        have hs : Dict.get? b e.1 = some (w.shown (fileId true c) e.1) :=
          hv e.1 (hcase.elim (fun h => .inl (.inl h)) (fun h => .inr ⟨rfl, h⟩))
        rw [getD_ok hs]
        rfl
    | false =>
      simp only [Bool.false_eq_true, if_false]
      have hpk := R.target pat hp e.1 hk ht
      have hs := hv e.1 (.inl (.inr (G.targetAttrs e.1 hk ht)))
      rw [attrRepr_eq hpk ((Dict.get?_isSome_iff _ _).1 (by rw [hs]; rfl))]
      simp only [bind, Except.bind, hp]
      rw [← shown_val (file := fileId tok c) ht]
      unfold valueOf
      simp only [Option.bind_some, hs, Option.getD_some]
  rw [hm]
  show Except.ok _ = Except.ok _
  unfold rowOf
  rw [List.filterMap_map]
  rfl

theorem placed_nodeText (G : GoodMacro f ea m) (R : Readable tok m) (P : Represents f ea ws g) {fid : Option String} {ψ : Nat → Option Word} (L : Placed rx m.graph ws ψ)
    {rec : Match} (hrec : Records g m.graph fid (idsOf ψ) rec) {x : Nat} (hx : x ∈ m.graph.nodes.keys) :
    nodeText grp m rec x = nodeOf grp m ψ x := by
  obtain ⟨w, hw⟩ := placed_word L hx
  obtain ⟨pat, hp⟩ := Option.isSome_iff_exists.1 ((Dict.get?_isSome_iff m.graph.nodes x).2 hx)
  obtain ⟨b, hb, hv⟩ := placed_node P L hrec hw
  unfold nodeText nodeOf
  congr 1
  apply List.map_congr_left
  intro e he
  have hk := R.featNodes x pat hp e.1 (List.mem_map_of_mem he)
  rw [onWord_some hw]
  congr 1
  rw [hb]
  unfold valueOf
  rw [Option.bind_some, hv e.1 (.inl (.inr ((G.nodes x pat hp).2 e.1 hk).2)), shown_val ((G.nodes x pat hp).2 e.1 hk).1]
  rfl

theorem placed_edgeText (G : GoodMacro f ea m) (R : Readable tok m) (P : Represents f ea ws g) {fid : Option String} {ψ : Nat → Option Word} (L : Placed rx m.graph ws ψ)
    {rec : Match} (hrec : Records g m.graph fid (idsOf ψ) rec) {x y : Nat} (he : HasEdge m.graph x y) :
    edgeText grp m rec (x, y) = edgeOf grp m ψ x y := by
  obtain ⟨r, T⟩ := G.tree
  obtain ⟨hx, hy⟩ := T.ends x y he
  obtain ⟨h, hh⟩ := placed_word L hx
  obtain ⟨w, hw⟩ := placed_word L hy
  obtain ⟨pat, hp⟩ := Option.isSome_iff_exists.1 ((Dict.get?_isSome_iff m.graph.edges (x, y)).2 he)
  obtain ⟨e, _⟩ := L.edge x y h w pat hp hh hw
  obtain ⟨item, hi, _⟩ := P.edge w (L.word y w hw)
  have hr : Dict.get? rec.edges (x, y) = some item := by
    rw [hrec.edges x y h.id w.id he (by unfold idsOf; rw [hh]; rfl) (by unfold idsOf; rw [hw]; rfl), ← e]
    exact hi
  unfold edgeText edgeOf
  congr 1
  apply List.map_congr_left
  intro a ha
  have hk := R.featEdges _ pat hp a.1 (List.mem_map_of_mem ha)
  rw [onWord_some hw]
  congr 1
  rw [hr]
  unfold valueOf
  rw [Option.bind_some, edge_item P (L.word y w hw) hi ((G.edges _ pat hp).2 a.1 hk)]
  rfl

theorem mapM_ok_values {γ δ ε : Type} {k : γ → Except ε δ} {v : γ → δ} {l : List γ} {r : List δ} (h : ∀ x ∈ l, ∀ y, k x = .ok y → y = v x)
    (hr : l.mapM k = .ok r) : r = l.map v := by
  induction l generalizing r with
  | nil => cases hr; rfl
  | cons a l ih =>
    rw [List.mapM_cons] at hr
    cases h1 : k a with
    | error e => rw [h1] at hr; cases hr
    | ok y =>
      rw [h1] at hr
      cases h2 : l.mapM k with
      | error e => rw [h2] at hr; cases hr
      | ok ys =>
        rw [h2] at hr
        cases hr
        rw [h a (List.mem_cons_self ..) y h1, ih (fun x hx => h x (List.mem_cons_of_mem _ hx)) h2]
        rfl

theorem succ_dependents (p : Graph) (x : Nat) : p.succ x = (p.edges.keys.filter (fun e => decide (e.1 = x))).map (fun e => e.2) := by
  unfold DG.succ Dict.keys
  rw [List.filter_map, List.map_map]
  rfl

theorem placed_below (G : GoodMacro f ea m) (R : Readable tok m) (P : Represents f ea ws g) {fid : Option String} {ψ : Nat → Option Word} (L : Placed rx m.graph ws ψ)
    {rec : Match} (hrec : Records g m.graph fid (idsOf ψ) rec) (C : Complete m rec) (n : Nat) :
    ∀ x s, preorder grp m rec n x = .ok s → s = belowOf grp m ψ n x := by
  obtain ⟨r, T⟩ := G.tree
  induction n with
  | zero => intro x s h; cases h
  | succ n ih =>
    intro x s h
    have hn : ∀ y, HasEdge m.graph x y → nodeRepr grp m rec y = .ok (nodeOf grp m ψ y) := by
      intro y hy
      rw [nodeRepr_eq C (T.ends x y hy).2, placed_nodeText G R P L hrec (T.ends x y hy).2]
    have he : ∀ y, HasEdge m.graph x y → edgeRepr grp m rec (x, y) = .ok (edgeOf grp m ψ x y) := by
      intro y hy
      rw [edgeRepr_eq C hy, placed_edgeText G R P L hrec hy]
    have hmem : ∀ y, y ∈ m.graph.succ x → HasEdge m.graph x y := fun y hy => mem_succ.1 hy
    unfold preorder at h
    unfold belowOf
    rw [← succ_dependents]
    generalize hws : m.graph.succ x = l at h hmem ⊢
    match l, h, hmem with
    | [], h, _ => cases h; rfl
    | [y], h, hmem =>
      have hy := hmem y (List.mem_singleton.2 rfl)
      simp only [shownOne, he y hy, hn y hy, bind, Except.bind] at h
      cases h1 : preorder grp m rec n y with
      | error e => rw [h1] at h; cases h
      | ok t =>
        rw [h1] at h
        cases h
        rw [ih y t h1]
        unfold colon
        simp only
        split_ifs <;> rfl
    | y :: y' :: l, h, hmem =>
      have hm : (y :: y' :: l).mapM (succRepr grp m rec x) =
          .ok ((y :: y' :: l).map (fun y => (y, edgeOf grp m ψ x y ++ ":" ++ nodeOf grp m ψ y))) := by
        apply mapM_ok
        intro z hz
        unfold succRepr
        rw [he z (hmem z hz), hn z (hmem z hz)]
        rfl
      simp only [hm, bind, Except.bind] at h
      generalize hS : sortedBy (fun e : Nat × String => e.2) ((y :: y' :: l).map (fun y => (y, edgeOf grp m ψ x y ++ ":" ++ nodeOf grp m ψ y))) = S at h
      cases h1 : S.mapM (fun e => addRest m e (preorder grp m rec n e.1)) with
      | error e => rw [h1] at h; cases h
      | ok parts =>
        rw [h1] at h
        cases h
        have hparts := mapM_ok_values (v := fun e : Nat × String =>
          (if e.1 = m.targetIdx then String.ofList ((edgeOf grp m ψ x e.1).toList.takeWhile (· ≠ ':')) ++ ":" ++ "#T#" else e.2) ++ belowOf grp m ψ n e.1) (by
            intro e hme t ht
            have hme : e ∈ (y :: y' :: l).map (fun y => (y, edgeOf grp m ψ x y ++ ":" ++ nodeOf grp m ψ y)) := by
              rw [← hS] at hme
              exact (sortedBy_perm _ _).mem_iff.1 hme
            obtain ⟨z, _, rfl⟩ := List.mem_map.1 hme
            simp only at ht ⊢
            unfold addRest at ht
            cases h2 : preorder grp m rec n z with
            | error e => rw [h2] at ht; cases ht
            | ok t' =>
              rw [h2] at ht
              cases ht
              rw [ih z t' h2]
              congr 1
              unfold shown
              simp only
              by_cases hz : z = m.targetIdx
              · rw [if_pos hz, if_pos hz]
                have := firstPart_colon (edgeOf grp m ψ x z) (nodeOf grp m ψ z)
                unfold colon at this
                rw [this]
                rfl
              · rw [if_neg hz, if_neg hz]) h1
        rw [hparts]
        simp only [hS]

theorem placed_featureStr (G : GoodMacro f ea m) (R : Readable tok m) (P : Represents f ea ws g) {fid : Option String} {ψ : Nat → Option Word} (L : Placed rx m.graph ws ψ)
    {rec : Match} (F : Fits rx g m.graph (idsOf ψ)) (hrec : Records g m.graph fid (idsOf ψ) rec) :
    featureStr grp m rec = .ok (colOf grp m ψ) := by
  obtain ⟨r, T⟩ := G.tree
  have C := complete_of_records T G R F hrec
  have hn : ∀ x ∈ m.graph.nodes.keys, nodeRepr grp m rec x = .ok (nodeOf grp m ψ x) := by
    intro x hx
    rw [nodeRepr_eq C hx, placed_nodeText G R P L hrec hx]
  unfold featureStr colOf
  cases hf : m.featureIdx with
  | some i => exact hn i (R.feature i hf)
  | none =>
    simp only
    obtain ⟨l, str, h1, _⟩ := featureFull_shows (grp := grp) T G.one C
    rw [h1]
    unfold featureFull at h1
    rw [hn 1 G.one] at h1
    have hstart : (if 1 = m.targetIdx then (Except.ok "#T#" : Except Err String) else .ok (nodeOf grp m ψ 1)) =
        .ok (if 1 = m.targetIdx then "#T#" else nodeOf grp m ψ 1) := by split_ifs <;> rfl
    rw [hstart] at h1
    simp only [bind, Except.bind, if_pos G.one] at h1
    cases h2 : preorder grp m rec (m.graph.nodes.length + 1) 1 with
    | error e => rw [h2] at h1; cases h1
    | ok s =>
      rw [h2] at h1
      rw [← placed_below G R P L hrec C _ 1 s h2]
      exact h1.symm

/-- The filter looks at the key. -/
theorem placed_rawTarget (G : GoodMacro f ea m) (P : Represents f ea ws g) {ψ : Nat → Option Word} (L : Placed rx m.graph ws ψ) :
    rawTarget g m (idsOf ψ) = keyOf m ψ := by
  obtain ⟨w, hw⟩ := placed_word L G.target
  obtain ⟨item, hi, _⟩ := P.node w (L.word _ w hw)
  unfold rawTarget keyOf
  congr 1
  apply List.map_congr_left
  intro a ha
  rw [List.mem_filter, Bool.not_eq_true'] at ha
  rw [onWord_some hw]
  unfold valueOf idsOf
  rw [hw, Option.map_some, Option.bind_some, hi, Option.bind_some, word_item P (L.word _ w hw) hi ⟨ha.2, G.targetAttrs a ha.1 ha.2⟩]
  rfl

theorem countP_ncard {α : Type} {l : List α} (h : l.Nodup) (q : α → Bool) : l.countP q = Set.ncard {x | x ∈ l ∧ q x = true} := by
  classical
  rw [List.countP_eq_length_filter, ← List.toFinset_card_of_nodup (h.filter q), ← Set.ncard_coe_finset]
  congr 1
  ext x
  simp

/-- What a sentence adds to the matches of the template. -/
theorem placed_sentence {istree : Graph → Bool} (hist : ∀ g, istree g = true ↔ IsTree g) (G : GoodMacro f ea m) (R : Readable tok m) {c : CorpusFile}
    (hs : GoodSentence f ws) {targets : List String}
    {recs : List Match} (h : SentenceAdds rx istree f ea (fileId tok c) { m with filter := some targets } ws recs) (t ft : String) :
    recs.countP (hasStrings grp tok m t ft) = placedCount rx grp targets (fileId tok c) m t ft ws := by
  classical
  obtain ⟨g, _, P, hno, hyes⟩ := h
  have hT := C69_tree_exact P hs.nonempty hs.ids
  unfold placedCount
  by_cases ht : HangsTogether ws
  · rw [if_pos ht]
    obtain ⟨maps, hn, hf, hr⟩ := hyes ((hist g).2 (hT.2 ht))
    have hf : ∀ φ, φ ∈ maps.map Dict.get? ↔ Fits rx g m.graph φ := hf
    have hr : List.Forall₂ (fun d rec => Records g m.graph (fileId tok c) (Dict.get? d) rec)
        (maps.filter (keeps g { m with filter := some targets })) recs := hr
    let Q : (Nat → Option Nat) → Bool := fun φ => decide (∃ ψ, Placed rx m.graph ws ψ ∧ φ = idsOf ψ ∧ rowOf grp (fileId tok c) m ψ = t ∧ colOf grp m ψ = ft)
    let K : (Nat → Option Nat) → Bool := fun φ => decide (rawTarget g m φ ∈ targets)
    have hrecs : recs.countP (hasStrings grp tok m t ft) =
        (maps.filter (keeps g { m with filter := some targets })).countP (fun d => Q (Dict.get? d)) := by
      apply countP_forall₂ hr
      intro d hd rec hrec
      have F := (hf (Dict.get? d)).1 (List.mem_map_of_mem (List.mem_filter.1 hd).1)
      obtain ⟨ψ, L, hφ⟩ := (fits_placed G P hs.ids _).1 F
      rw [hφ] at hrec F
      rw [hφ]
      unfold hasStrings
      rw [placed_targetStr G R P L hrec, placed_featureStr G R P L F hrec, Bool.eq_iff_iff, Bool.and_eq_true, decide_eq_true_eq, decide_eq_true_eq, decide_eq_true_eq,
        Except.ok.injEq, Except.ok.injEq]
      constructor
      · rintro ⟨h1, h2⟩; exact ⟨ψ, L, rfl, h1, h2⟩
      · rintro ⟨ψ', L', e, h1, h2⟩
        rw [idsOf_inj hs.ids L L' e]
        exact ⟨h1, h2⟩
    rw [hrecs, List.countP_filter]
    have hmap : maps.countP (fun d => Q (Dict.get? d) && keeps g { m with filter := some targets } d) =
        (maps.map Dict.get?).countP (fun φ => Q φ && K φ) := by
      rw [List.countP_map]
      rfl
    rw [hmap, countP_ncard hn]
    have himg : {φ | φ ∈ maps.map Dict.get? ∧ (Q φ && K φ) = true} =
        idsOf '' {ψ | Placed rx m.graph ws ψ ∧ keyOf m ψ ∈ targets ∧ rowOf grp (fileId tok c) m ψ = t ∧ colOf grp m ψ = ft} := by
      ext φ
      simp only [Set.mem_ofPred_eq, Set.mem_image, Bool.and_eq_true]
      constructor
      · rintro ⟨_, hQ, hK⟩
        obtain ⟨ψ, L, rfl, h1, h2⟩ := of_decide_eq_true hQ
        have hK := of_decide_eq_true hK
        rw [placed_rawTarget G P L] at hK
        exact ⟨ψ, ⟨L, hK, h1, h2⟩, rfl⟩
      · rintro ⟨ψ, ⟨L, hK, h1, h2⟩, rfl⟩
        refine ⟨(hf _).2 ((fits_placed G P hs.ids _).2 ⟨ψ, L, rfl⟩), decide_eq_true ⟨ψ, L, rfl, h1, h2⟩, decide_eq_true ?_⟩
        rw [placed_rawTarget G P L]
        exact hK
    rw [himg]
    exact Set.InjOn.ncard_image (fun ψ h ψ' h' e => idsOf_inj hs.ids h.1 h'.1 e)
  · rw [if_neg ht, hno]
    · rfl
    · have := (hist g).not.2 (fun h => ht (hT.1 h))
      simpa using this

/-- The counts of all templates in all files, from the collected matches. -/
theorem templates_found {istree : Graph → Bool} (hist : ∀ g, istree g = true ↔ IsTree g) (S : DepSettings f ea) {files : List CorpusFile}
    {sents : CorpusFile → List (List Word)} (hf : ∀ c ∈ files, readSentence f c.lines = (sents c).map linesOf)
    (hs : ∀ c ∈ files, ∀ ws ∈ sents c, GoodSentence f ws) {targets : List String} {ps : List Macro} (hG : ∀ m ∈ ps, GoodMacro f ea m) (hR : ∀ m ∈ ps, Readable tok m) (h0 : ∀ m ∈ ps, m.found = [])
    {W : Nat} {acc : Nat → List Match} (hcall : DepCall (depFound rx istree f tok targets ps) W files (fun _ => []) acc)
    {i : Nat} {p : Macro} (hi : ps[i]? = some p) :
    (∀ t ft, (acc i).countP (hasStrings grp tok p t ft) =
      (files.map (fun file => ((sents file).map (placedCount rx grp targets (fileId tok file) p t ft)).sum)).sum) ∧
    ∀ mt ∈ acc i, ∃ t ft, hasStrings grp tok p t ft mt = true := by
  have GM := hG p (List.mem_of_getElem? hi)
  have R := hR p (List.mem_of_getElem? hi)
  have hm := hi
  have hperm := (C06_first_call (κ := String) _ W files acc hcall).1 i
  constructor
  · intro t ft
    rw [hperm.countP_eq, List.countP_flatMap]
    congr 1
    apply List.map_congr_left
    intro c hc
    obtain ⟨parts, h1, h2⟩ := depFound_spec (rx := rx) (istree := istree) (tok := tok) S c (hf c hc) (hs c hc) targets _ hG h0 hm
    show List.countP _ (depFound rx istree f tok targets _ c i) = _
    rw [h2, List.countP_flatten]
    congr 1
    have hss := hs c hc
    clear h2
    generalize sents c = ss at h1 hss ⊢
    induction h1 with
    | nil => rfl
    | cons h _ ih =>
      rw [List.map_cons, List.map_cons, ih (fun ws hws => hss ws (List.mem_cons_of_mem _ hws)),
        placed_sentence hist GM R (hss _ (List.mem_cons_self ..)) h]
  · intro mt hmt
    obtain ⟨c, hc, hmt⟩ := List.mem_flatMap.1 (hperm.mem_iff.1 hmt)
    obtain ⟨parts, h1, h2⟩ := depFound_spec (rx := rx) (istree := istree) (tok := tok) S c (hf c hc) (hs c hc) targets _ hG h0 hm
    have hmt : mt ∈ depFound rx istree f tok targets ps c i := hmt
    rw [h2] at hmt
    obtain ⟨l, hl, hmt⟩ := List.mem_flatten.1 hmt
    obtain ⟨ws, hadd⟩ : ∃ ws, SentenceAdds rx istree f ea (fileId tok c) { p with filter := some targets } ws l := by
      generalize sents c = ss at h1
      clear * - h1 hl
      induction h1 with
      | nil => cases hl
      | cons h _ ih =>
        rcases List.mem_cons.1 hl with rfl | h'
        · exact ⟨_, h⟩
        · exact ih h'
    obtain ⟨⟨t, ft⟩, hpair⟩ := pairOf_ok grp (m := { p with filter := some targets })
      ⟨GM.tree, GM.one, GM.depth, GM.target, GM.targetAttrs, GM.nodes, GM.edges⟩ ⟨R.target, R.token, R.featNodes, R.featEdges, R.feature⟩ hadd mt hmt
    have e2 := pairOf_found grp tok p (some targets) p.found mt
    have hq : pairOf grp tok p mt = .ok (t, ft) := e2.symm.trans hpair
    refine ⟨t, ft, ?_⟩
    rw [← pairOf_match, hq]
    simp [okAnd]

/-- **C204.** `build_dependency` with templates of any shape, for every number of workers and every schedule: if the templates count
something in the corpus, the result is the matrix whose rows and columns are the targets and features that occur, sorted, and whose
entries count the placements of the templates on words; if they count nothing, it raises `ValueError`.  `istree` is what networkx documents. -/
theorem C204_partial {istree : Graph → Bool} (hist : ∀ g, istree g = true ↔ IsTree g) (S : DepSettings f ea) {files : List CorpusFile}
    {sents : CorpusFile → List (List Word)} (hf : ∀ c ∈ files, readSentence f c.lines = (sents c).map linesOf)
    (hs : ∀ c ∈ files, ∀ ws ∈ sents c, GoodSentence f ws) (targets : List String) {ps : List Macro} (hG : ∀ m ∈ ps, GoodMacro f ea m) (hR : ∀ m ∈ ps, Readable tok m) (h0 : ∀ m ∈ ps, m.found = [])
    {W : Nat} {acc : Nat → List Match} (hcall : DepCall (depFound rx istree f tok targets ps) W files (fun _ => []) acc) :
    ((∃ t c, templateCount rx grp targets tok sents files ps t c ≠ 0) →
      ∃ mtx, matchMatrix grp tok (withFound ps acc) = .ok mtx ∧ Valid mtx ∧
        mtx.rows.Pairwise (· ≤ ·) ∧ mtx.cols.Pairwise (· ≤ ·) ∧
        (∀ t, t ∈ mtx.rows ↔ ∃ c, templateCount rx grp targets tok sents files ps t c ≠ 0) ∧
        (∀ c, c ∈ mtx.cols ↔ ∃ t, templateCount rx grp targets tok sents files ps t c ≠ 0) ∧
        ∀ t c, entry mtx t c = (templateCount rx grp targets tok sents files ps t c : Nat)) ∧
    ((∀ t c, templateCount rx grp targets tok sents files ps t c = 0) →
      matchMatrix grp tok (withFound ps acc) = .error .valueError) := by
  have hmz : ∀ e ∈ ps.zipIdx, ps[e.2]? = some e.1 := by
    intro e he
    obtain ⟨_, h, he'⟩ := List.mem_zipIdx he
    rw [List.getElem?_eq_getElem (by omega)]
    simp only [Nat.sub_zero] at he'
    rw [he']
  have hW : withFound ps acc = ps.zipIdx.map (fun e => { e.1 with found := acc e.2 }) := by
    rfl
  have hall : ∀ e ∈ ps.zipIdx, ∀ mt ∈ acc e.2, ∃ q, pairOf grp tok { e.1 with found := acc e.2 } mt = .ok q := by
    intro e he mt hmt
    obtain ⟨t, ft, h⟩ := (templates_found (grp := grp) hist S hf hs hG hR h0 hcall (hmz e he)).2 mt hmt
    rw [← pairOf_match] at h
    refine ⟨(t, ft), (pairOf_found grp tok e.1 e.1.filter (acc e.2) mt).trans ?_⟩
    show pairOf grp tok e.1 mt = _
    unfold okAnd at h
    split at h
    · rename_i y hy
      rw [hy]
      simp only [decide_eq_true_eq] at h
      rw [h]
    · cases h
  have hok : ∃ qs, matchPairs grp tok (withFound ps acc) = .ok qs := by
    have : ∀ m ∈ withFound ps acc, ∃ l, macroPairs grp tok m = .ok l := by
      intro m hm
      rw [hW] at hm
      obtain ⟨e, he, rfl⟩ := List.mem_map.1 hm
      exact mapM_all_ok _ _ (hall e he)
    obtain ⟨l, hl⟩ := mapM_all_ok _ _ this
    refine ⟨l.flatten, ?_⟩
    unfold matchPairs
    rw [hl]
    rfl
  have hcount : ∀ t ft, ((withFound ps acc).map (fun m => m.found.countP (hasStrings grp tok m t ft))).sum =
      templateCount rx grp targets tok sents files ps t ft := by
    intro t ft
    rw [hW, List.map_map]
    unfold templateCount
    conv_rhs => rw [← List.zipIdx_map_fst 0 ps, List.map_map]
    congr 1
    apply List.map_congr_left
    intro e he
    show (acc e.2).countP (hasStrings grp tok { e.1 with found := acc e.2 } t ft) = _
    rw [hasStrings_found, (templates_found (grp := grp) hist S hf hs hG hR h0 hcall (hmz e he)).1]
    rfl
  constructor
  · rintro ⟨t, c, hne⟩
    have hfound : ∃ m ∈ withFound ps acc, m.found ≠ [] := by
      by_contra hno
      apply hne
      rw [← hcount]
      apply List.sum_eq_zero
      intro n hn
      obtain ⟨m, hm, rfl⟩ := List.mem_map.1 hn
      have : m.found = [] := by
        by_contra h
        exact hno ⟨m, hm, h⟩
      rw [this]
      rfl
    obtain ⟨mtx, h1, h2, _, _, _, _, h7⟩ := C67_partial grp tok _ hok hfound
    obtain ⟨i1, i2, i3, i4⟩ := matchMatrix_items h1
    have hent : ∀ t c, entry mtx t c = (templateCount rx grp targets tok sents files ps t c : Nat) := fun t c => by rw [h7, hcount]
    refine ⟨mtx, h1, h2, i1, i2, fun t => ?_, fun c => ?_, hent⟩
    · rw [i3]
      simp only [hent, ne_eq, Int.natCast_eq_zero]
    · rw [i4]
      simp only [hent, ne_eq, Int.natCast_eq_zero]
  · intro hz
    apply C67_false_none
    intro m hm
    by_contra hne
    obtain ⟨mt, l, hl⟩ := List.exists_cons_of_ne_nil hne
    rw [hW] at hm
    obtain ⟨e, he, rfl⟩ := List.mem_map.1 hm
    have hmt : mt ∈ acc e.2 := by
      have : acc e.2 = mt :: l := hl
      rw [this]
      exact List.mem_cons_self ..
    obtain ⟨t, ft, h⟩ := (templates_found (grp := grp) hist S hf hs hG hR h0 hcall (hmz e he)).2 mt hmt
    have h0 := hz t ft
    rw [← hcount, hW, List.map_map] at h0
    have h1 := sum_zero h0 _ (List.mem_map_of_mem he)
    have h1 : (acc e.2).countP (hasStrings grp tok { e.1 with found := acc e.2 } t ft) = 0 := h1
    rw [hasStrings_found, List.countP_eq_zero] at h1
    exact h1 mt hmt h

theorem rooted_of_hangs {r : Nat} (P : Represents f ea ws g) (hne : ws ≠ []) (hid : (ws.map Word.id).Nodup)
    (h0 : ∀ w ∈ ws, w.id ≠ r) (hr : ∀ w ∈ ws, Relation.ReflTransGen (Heads ws) r w.id) : RootedTree g r := by
  have hE : ∀ u v, HasEdge g u v ↔ Heads ws u v := P.edgeIff
  have hroot : r ∈ g.nodes.keys := by
    obtain ⟨w, ws', rfl⟩ := List.exists_cons_of_ne_nil hne
    rcases Relation.ReflTransGen.cases_head (hr w (by simp)) with h | ⟨v, ⟨x, hx, h, _⟩, _⟩
    · exact absurd h.symm (h0 w (by simp))
    · exact (P.nodeIff r).2 ⟨x, hx, Or.inr h⟩
  have hmono : ∀ v, Relation.ReflTransGen (Heads ws) r v → Relation.ReflTransGen (HasEdge g) r v := by
    intro v h
    exact Relation.ReflTransGen.mono (fun u v huv => (hE u v).2 huv) _ _ h
  refine ⟨P.nodesWF, P.edgesWF, ?_, hroot, ?_, ?_, ?_⟩
  · intro u v h
    obtain ⟨w, hw, rfl, rfl⟩ := (hE u v).1 h
    exact ⟨(P.nodeIff _).2 ⟨w, hw, Or.inr rfl⟩, (P.nodeIff _).2 ⟨w, hw, Or.inl rfl⟩⟩
  · intro u h
    obtain ⟨w, hw, _, h⟩ := (hE u r).1 h
    exact h0 w hw h.symm
  · intro u u' v h h'
    obtain ⟨w, hw, rfl, rfl⟩ := (hE u v).1 h
    obtain ⟨w', hw', rfl, he⟩ := (hE u' _).1 h'
    rw [List.inj_on_of_nodup_map hid hw hw' he]
  · intro v hv
    apply hmono
    obtain ⟨w, hw, rfl | rfl⟩ := (P.nodeIff v).1 hv
    · exact hr w hw
    · have h := hr w hw
      rcases Relation.ReflTransGen.cases_tail h with h | ⟨u, hu, x, hx, rfl, he⟩
      · exact absurd h (h0 w hw)
      · rw [List.inj_on_of_nodup_map hid hw hx he]
        exact hu

/-- Different nodes of a template are placed on different words. -/
theorem C204_distinct (S : DepSettings f ea) (hs : GoodSentence f ws) (ht : HangsTogether ws) (G : GoodMacro f ea m) {ψ : Nat → Option Word}
    (L : Placed rx m.graph ws ψ) {x y : Nat} {w : Word} (hx : ψ x = some w) (hy : ψ y = some w) : x = y := by
  obtain ⟨g, _, P⟩ := C69_graph S ws hs.nonempty hs.lines hs.ids
  obtain ⟨r, h0, hr⟩ := ht
  obtain ⟨t, T⟩ := G.tree
  exact C37_injective T (rooted_of_hangs P hs.nonempty hs.ids h0 hr) ((fits_placed G P hs.ids _).2 ⟨ψ, L, rfl⟩) (x := x) (y := y) (b := w.id)
    (by unfold idsOf; rw [hx]; rfl) (by unfold idsOf; rw [hy]; rfl)

end

/-- The placement of the verb and its two nouns, `apple` being the target. -/
def samplePlace : Nat → Option Word := fun x => if x = 1 then sampleWords[1]? else if x = 2 then sampleWords[2]? else if x = 3 then sampleWords[0]? else none

theorem sample_placed : Placed rx0 verbPat sampleWords samplePlace where
  dom := by
    intro x
    rw [show verbPat.nodes.keys = [1, 2, 3] from rfl]
    unfold samplePlace
    by_cases h1 : x = 1
    · subst h1; decide
    by_cases h2 : x = 2
    · subst h2; decide
    by_cases h3 : x = 3
    · subst h3; decide
    rw [if_neg h1, if_neg h2, if_neg h3]
    simp [h1, h2, h3]
  word := by
    intro x w h
    unfold samplePlace at h
    split_ifs at h <;> exact List.mem_of_getElem? h
  node := by
    intro x w c hx hc
    unfold samplePlace at hx
    split_ifs at hx with h1 h2 h3
    · subst h1; cases hx; cases hc; decide
    · subst h2; cases hx; cases hc; decide
    · subst h3; cases hx; cases hc; decide
  edge := by
    intro x x' h w c hc hx hx'
    rcases verbPat_edge.1 ((Dict.get?_isSome_iff verbPat.edges (x, x')).1 (by rw [hc]; rfl)) with e | e <;>
      (cases e; cases hx; cases hx'; cases hc; decide)
  siblings := by
    intro x y z w h1 h2 hy hz
    rcases verbPat_edge.1 h1 with e | e <;> rcases verbPat_edge.1 h2 with e' | e' <;> cases e <;> cases e'
    · rfl
    · cases hy; exact absurd (congrArg (Option.map Word.id) hz) (by decide)
    · cases hy; exact absurd (congrArg (Option.map Word.id) hz) (by decide)
    · rfl

theorem sample_place_only {ψ : Nat → Option Word} (L : Placed rx0 verbPat sampleWords ψ) (hk : keyOf (verbMacro none) ψ = "apple/N") : ψ = samplePlace := by
  obtain ⟨w1, h1⟩ := Option.isSome_iff_exists.1 ((L.dom 1).2 (by decide))
  obtain ⟨w2, h2⟩ := Option.isSome_iff_exists.1 ((L.dom 2).2 (by decide))
  obtain ⟨w3, h3⟩ := Option.isSome_iff_exists.1 ((L.dom 3).2 (by decide))
  have n1 := L.node 1 w1 _ h1 rfl
  have n3 := L.node 3 w3 _ h3 rfl
  have hsib : w3 = w2 → 2 = 3 := fun e => L.siblings 1 2 3 w2 (verbPat_edge.2 (.inl rfl)) (verbPat_edge.2 (.inr rfl)) h2 (e ▸ h3)
  have hkey : w2.val "LEMMA" ++ "/" ++ w2.val "POS" = "apple/N" := by
    rw [← hk]
    unfold keyOf
    show _ = String.intercalate "/" [onWord ψ 2 (fun w => w.val "LEMMA"), onWord ψ 2 (fun w => w.val "POS")]
    rw [onWord_some h2, onWord_some h2]
    rfl
  have m1 := L.word 1 w1 h1
  have m2 := L.word 2 w2 h2
  have m3 := L.word 3 w3 h3
  simp only [sampleWords, List.mem_cons, List.not_mem_nil, or_false] at m1 m2 m3
  have e1 : ψ 1 = samplePlace 1 := by
    rw [h1]
    rcases m1 with rfl | rfl | rfl
    · exact absurd n1 (by decide)
    · rfl
    · exact absurd n1 (by decide)
  have e2 : ψ 2 = samplePlace 2 := by
    rw [h2]
    rcases m2 with rfl | rfl | rfl
    · exact absurd hkey (by decide)
    · exact absurd hkey (by decide)
    · rfl
  have e3 : ψ 3 = samplePlace 3 := by
    rw [h3]
    rcases m3 with rfl | rfl | rfl
    · rfl
    · exact absurd n3 (by decide)
    · rw [h2] at e2
      cases e2
      exact absurd (hsib rfl) (by decide)
  funext x
  by_cases hx1 : x = 1
  · rw [hx1, e1]
  by_cases hx2 : x = 2
  · rw [hx2, e2]
  by_cases hx3 : x = 3
  · rw [hx3, e3]
  have hn : ψ x = none := by
    rcases hx : ψ x with _ | w
    · rfl
    · have := (L.dom x).1 (by rw [hx]; rfl)
      rw [show verbPat.nodes.keys = [1, 2, 3] from rfl] at this
      simp [hx1, hx2, hx3] at this
  rw [hn]
  unfold samplePlace
  rw [if_neg hx1, if_neg hx2, if_neg hx3]

/-- C204 on the sample corpus, with a template for a verb with two nouns: the hypotheses hold and `apple/N` occurs once with `eat` and the
subject `boy`. -/
example : DepSettings sampleFmt ["DEPREL"] ∧ readSentence sampleFmt sampleFile.lines = [sampleWords].map linesOf ∧ GoodSentence sampleFmt sampleWords ∧
    GoodMacro sampleFmt ["DEPREL"] (verbMacro none) ∧ Readable false (verbMacro none) ∧ (verbMacro none).found = [] ∧
    templateCount rx0 grp0 ["apple/N"] false (fun _ => [sampleWords]) [sampleFile] [verbMacro none] "apple/N" "eat->[nsubj:boy,obj:#T#]" = 1 := by
  refine ⟨sample_settings, sample_read, sample_sentence, sample_macro none, sample_readable none, rfl, ?_⟩
  unfold templateCount
  simp only [List.map_singleton, List.sum_singleton]
  unfold placedCount
  rw [if_pos sample_hangs, Set.ncard_eq_one]
  refine ⟨samplePlace, Set.ext fun ψ => ?_⟩
  rw [Set.mem_singleton_iff]
  constructor
  · rintro ⟨L, hk, _, _⟩
    exact sample_place_only L (List.mem_singleton.1 hk)
  · rintro rfl
    exact ⟨sample_placed, by decide, by decide, by decide +kernel⟩

end Verif.Dep
