import Verif.Dep.PropsAdd

/-!
# C212: dependency matrices of tokens

`DepRelHandler(mode='token')` and `DepRelHandler(mode='type')` on the same corpus: `/repo/nephosem/models/deprel.py:147-163, 218-267`.
-/

namespace Verif.Dep
open Verif.Py Verif.Matrix Verif.Engine
set_option linter.unusedSectionVars false

variable {rx : String → String → Bool} {istree : Graph → Bool} {f : LineFormat} {grp : String → String → Nat → Option String}

/-! ## Specification -/

/-- Templates whose target string is made of columns of the word, the file and the line. -/
structure TokenMacro (m : Macro) : Prop where
  attrs : ∃ base fa i j, m.targetAttrs = base ++ [(fa, i), ("lid", j)] ∧ (fa = "fid" ∨ fa = "FID") ∧ base ≠ [] ∧
    ∀ e ∈ base, isTokenAttr e.1 = false
  feats : ∀ e ∈ m.featNodeAttrs, e.1 ≠ "FID" ∧ e.1 ≠ "fid"
  conn : m.connector = "/"
  fresh : m.found = []

/-- A string without its last part after a slash. -/
def cutLast (s : List Char) : List Char := ((s.reverse.dropWhile (· ≠ '/')).drop 1).reverse

/-- The type in the name of a token: without file and line. -/
def typeOfToken (r : String) : String := String.ofList (cutLast (cutLast r.toList))

/-- The name of a token. -/
def tokenName (t file line : String) : String := t ++ "/" ++ file ++ "/" ++ line

theorem cutLast_append (a b : List Char) (h : '/' ∉ b) : cutLast (a ++ '/' :: b) = a := by
  unfold cutLast
  rw [List.reverse_append, List.reverse_cons, List.append_assoc]
  have : (b.reverse ++ (['/'] ++ a.reverse)).dropWhile (· ≠ '/') = '/' :: a.reverse := by
    have hb : ∀ x ∈ b.reverse, decide (x ≠ '/') = true := by
      intro x hx
      simp only [decide_eq_true_eq]
      rintro rfl
      exact h (List.mem_reverse.1 hx)
    rw [List.dropWhile_append_of_pos hb]
    rfl
  rw [this]
  simp

theorem typeOfToken_name (t file line : String) (h1 : '/' ∉ file.toList) (h2 : '/' ∉ line.toList) :
    typeOfToken (tokenName t file line) = t := by
  unfold typeOfToken tokenName
  have e : (t ++ "/" ++ file ++ "/" ++ line).toList = (t.toList ++ '/' :: file.toList) ++ '/' :: line.toList := by
    simp [String.toList_append]
  rw [e, cutLast_append _ _ h2, cutLast_append _ _ h1, String.ofList_toList]

/-- Different parts give different names. -/
theorem tokenName_inj {t file line t' file' line' : String} (h1 : '/' ∉ file.toList) (h2 : '/' ∉ line.toList)
    (h1' : '/' ∉ file'.toList) (h2' : '/' ∉ line'.toList) :
    tokenName t file line = tokenName t' file' line' ↔ t = t' ∧ file = file' ∧ line = line' := by
  constructor
  · intro h
    have ht : t = t' := by rw [← typeOfToken_name t file line h1 h2, h, typeOfToken_name t' file' line' h1' h2']
    subst ht
    have e : ∀ a b : String, (tokenName t a b).toList = (t.toList ++ '/' :: a.toList) ++ '/' :: b.toList := by
      intro a b; unfold tokenName; simp [String.toList_append]
    have hl : (t.toList ++ '/' :: file.toList) ++ '/' :: line.toList = (t.toList ++ '/' :: file'.toList) ++ '/' :: line'.toList := by
      rw [← e, ← e, h]
    have hf := congrArg cutLast hl
    rw [cutLast_append _ _ h2, cutLast_append _ _ h2'] at hf
    have hf' : file = file' := by
      have := List.append_cancel_left hf
      simp only [List.cons.injEq, true_and] at this
      exact String.toList_injective this
    subst hf'
    have := List.append_cancel_left hl
    simp only [List.cons.injEq, true_and] at this
    exact ⟨rfl, rfl, String.toList_injective this⟩
  · rintro ⟨rfl, rfl, rfl⟩; rfl

/-- The line of the target word of a match. -/
def lineOf (m : Macro) (mt : Match) : Option String := (mt.nodes.get? m.targetIdx).bind (fun a => Dict.get? a "lid")

/-! ## Matches in token mode -/

/-- What token mode adds to a match: `deputils.py:258-261`. -/
def tagAttrs (F : String) (a : Attrs) : Attrs := Dict.set (Dict.set a "FID" F) "fid" F

def tagM (F : String) (mt : Match) : Match := { mt with nodes := mt.nodes.map (fun e => (e.1, tagAttrs F e.2)) }

theorem addOne_tag (s : Graph) (F : String) (m : Macro) (d : Dict Nat Nat) :
    addOne s (some F) m d = (addOne s none m d).map (Option.map (tagM F)) := by
  unfold addOne
  cases hn : List.mapM (nodeAttrs s) d with
  | error e => rfl
  | ok nodes =>
    simp only [bind, Except.bind]
    cases hp : passes m nodes with
    | error e => rfl
    | ok b =>
      cases b with
      | false => rfl
      | true =>
        simp only [if_true]
        cases he : List.mapM (edgeAttrs s d) m.graph.edges.keys with
        | error e => rfl
        | ok edges => rfl

theorem mapM_map_except {α β γ : Type} (g : α → Except Err β) (h : β → γ) (l : List α) :
    l.mapM (fun x => (g x).map h) = (l.mapM g).map (List.map h) := by
  induction l with
  | nil => rfl
  | cons x l ih =>
    rw [List.mapM_cons, List.mapM_cons, ih]
    cases hx : g x with
    | error e => rfl
    | ok y =>
      cases hl : l.mapM g with
      | error e => rfl
      | ok ys => rfl

theorem mapM_congr_mem {α β : Type} {g h : α → Except Err β} {l : List α} (e : ∀ x ∈ l, g x = h x) : l.mapM g = l.mapM h := by
  induction l with
  | nil => rfl
  | cons x l ih => rw [List.mapM_cons, List.mapM_cons, e x (by simp), ih (fun y hy => e y (by simp [hy]))]

/-- A macro in token mode. -/
def tagMacro (F : String) (m : Macro) : Macro := { m with found := m.found.map (tagM F) }

theorem treeMatch_tag (b : Bool) (s : Graph) (F : String) (m : Macro) :
    treeMatch rx b s (some F) (tagMacro F m) = (treeMatch rx b s none m).map (tagMacro F) := by
  unfold treeMatch
  cases b with
  | false => rfl
  | true =>
    simp only [if_true, bind, Except.bind]
    have hg : (tagMacro F m).graph = m.graph := rfl
    have hd : (tagMacro F m).depth = m.depth := rfl
    rw [hg, hd]
    cases ht : treeMaps rx s m.graph m.depth with
    | error e => rfl
    | ok maps =>
      simp only
      have ha : maps.mapM (addOne s (some F) (tagMacro F m)) = (maps.mapM (addOne s none m)).map (List.map (Option.map (tagM F))) := by
        rw [← mapM_map_except]
        congr 1
        funext d
        rw [← addOne_tag]
        rfl
      rw [ha]
      cases hm : maps.mapM (addOne s none m) with
      | error e => rfl
      | ok xs =>
        simp only [Except.map]
        unfold tagMacro
        simp only [List.map_append]
        congr 3
        clear hm ha
        induction xs with
        | nil => rfl
        | cons x xs ih =>
          cases x with
          | none => exact ih
          | some x =>
            show tagM F x :: _ = tagM F x :: _
            congr 1

theorem matchOne_tag (F : String) (m : Macro) (s : List (Nat × String)) :
    matchOne rx istree f (some F) (tagMacro F m) s = (matchOne rx istree f none m s).map (tagMacro F) := by
  unfold matchOne
  cases sentenceGraph f s with
  | error e => rfl
  | ok g =>
    simp only [bind, Except.bind]
    cases istree g with
    | false => rfl
    | true => exact treeMatch_tag true g F m

theorem fold_tag (F : String) (ss : List (List (Nat × String))) (m : Macro) :
    ss.foldlM (matchOne rx istree f (some F)) (tagMacro F m) = (ss.foldlM (matchOne rx istree f none) m).map (tagMacro F) := by
  induction ss generalizing m with
  | nil => rfl
  | cons s ss ih =>
    rw [List.foldlM_cons, List.foldlM_cons, matchOne_tag]
    cases matchOne rx istree f none m s with
    | error e => rfl
    | ok m' => exact ih m'

/-- In token mode the same matches are found, with the file in every node. -/
theorem foundOne_tag (targets : List String) (c : CorpusFile) {m : Macro} (h : m.found = []) :
    foundOne rx istree f true targets c m = (foundOne rx istree f false targets c m).map (tagM c.base) := by
  unfold foundOne
  have e : ({ m with filter := some targets } : Macro) = tagMacro c.base { m with filter := some targets } := by
    unfold tagMacro; simp [h]
  have ht : fileId true c = some c.base := rfl
  have hf : fileId false c = none := rfl
  rw [ht, hf]
  conv_lhs => rw [e]
  rw [fold_tag]
  cases (readSentence f c.lines).foldlM (matchOne rx istree f none) { m with filter := some targets } with
  | error e => rfl
  | ok m' => rfl

/-! ## Strings of matches in token mode -/

theorem get?_tag (F : String) (mt : Match) (v : Nat) : (tagM F mt).nodes.get? v = (mt.nodes.get? v).map (tagAttrs F) := by
  unfold tagM
  obtain ⟨nodes, edges⟩ := mt
  simp only
  induction nodes with
  | nil => rfl
  | cons e l ih =>
    rw [List.map_cons, Dict.get?_cons, Dict.get?_cons]
    split
    · rfl
    · exact ih

theorem get?_tagAttrs (F : String) (a : Attrs) (k : String) (h1 : k ≠ "FID") (h2 : k ≠ "fid") :
    (tagAttrs F a).get? k = Dict.get? a k := by
  unfold tagAttrs
  rw [Dict.get?_set, if_neg (Ne.symm h2), Dict.get?_set, if_neg (Ne.symm h1)]

theorem getD_tag (F : String) (mt : Match) (v : Nat) : getD (tagM F mt).nodes v = (getD mt.nodes v).map (tagAttrs F) := by
  unfold getD
  rw [get?_tag]
  cases mt.nodes.get? v <;> rfl

theorem nodeRepr_tag {m : Macro} (hm : TokenMacro m) (F : String) (mt : Match) (v : Nat) :
    nodeRepr grp m (tagM F mt) v = nodeRepr grp m mt v := by
  unfold nodeRepr
  rw [getD_tag]
  cases hi : getD mt.nodes v with
  | error e => rfl
  | ok item =>
    simp only [Except.map, bind, Except.bind]
    cases hp : getD m.graph.nodes v with
    | error e => rfl
    | ok pat =>
      simp only
      have : m.featNodeAttrs.mapM (nodeAttrRepr grp pat (tagAttrs F item)) = m.featNodeAttrs.mapM (nodeAttrRepr grp pat item) := by
        refine mapM_congr_mem (fun e he => ?_)
        obtain ⟨h1, h2⟩ := hm.feats e he
        unfold nodeAttrRepr getD
        rw [get?_tagAttrs F item e.1 h1 h2]
      rw [this]

theorem preorder_tag {m : Macro} (hm : TokenMacro m) (F : String) (mt : Match) (n cur : Nat) :
    preorder grp m (tagM F mt) n cur = preorder grp m mt n cur := by
  induction n generalizing cur with
  | zero => rfl
  | succ n ih =>
    have he : ∀ e, edgeRepr grp m (tagM F mt) e = edgeRepr grp m mt e := fun e => rfl
    have h1 : ∀ w, shownOne grp m (tagM F mt) cur w = shownOne grp m mt cur w := by
      intro w; unfold shownOne; rw [nodeRepr_tag hm, he]
    have h2 : succRepr grp m (tagM F mt) cur = succRepr grp m mt cur := by
      funext w; unfold succRepr; rw [nodeRepr_tag hm, he]
    simp only [preorder, h1, h2, ih]

theorem featureStr_tag {m : Macro} (hm : TokenMacro m) (F : String) (mt : Match) :
    featureStr grp m (tagM F mt) = featureStr grp m mt := by
  unfold featureStr
  cases m.featureIdx with
  | none =>
    unfold featureFull
    simp only [preorder_tag hm, nodeRepr_tag hm]
  | some i =>
    unfold featureSimple
    exact nodeRepr_tag hm F mt i

/-! ## Every word has a line -/

/-- The attribute `lid` is a number. -/
def HasLine (a : Attrs) : Prop := Dict.WF a ∧ ∃ k : Nat, Dict.get? a "lid" = some (toString k)

/-- No key twice, neither among the nodes nor in their attributes. -/
def WF2 (d : Dict Nat Attrs) : Prop := Dict.WF d ∧ ∀ k a, Dict.get? d k = some a → Dict.WF a

theorem WF2_setIn {d : Dict Nat Attrs} (h : WF2 d) (n : Nat) (c v : String) : WF2 (setIn d n c v) := by
  unfold setIn
  refine ⟨Dict.WF_set h.1 _ _, fun k a ha => ?_⟩
  rw [Dict.get?_set] at ha
  split at ha
  · cases ha
    refine Dict.WF_set ?_ _ _
    cases hn : Dict.get? d n with
    | none => exact Dict.WF_nil
    | some b => exact h.2 n b hn
  · exact h.2 k a ha

theorem colFold_other (ea g : List String) (n h : Nat) (cols : List String) (st st' : Parts) (hs : cols.foldlM (colStep f ea g n h) st = .ok st')
    (hw : WF2 st.1) : WF2 st'.1 ∧ ∀ k, k ≠ n → Dict.get? st'.1 k = Dict.get? st.1 k := by
  induction cols generalizing st with
  | nil => cases hs; exact ⟨hw, fun _ _ => rfl⟩
  | cons c cols ih =>
    rw [List.foldlM_cons] at hs
    cases hc : colStep f ea g n h st c with
    | error e => rw [hc] at hs; cases hs
    | ok st1 =>
      rw [hc] at hs
      have key : WF2 st1.1 ∧ ∀ k, k ≠ n → Dict.get? st1.1 k = Dict.get? st.1 k := by
        unfold colStep at hc
        cases hv : getCol f g c with
        | error e => rw [hv] at hc; cases hc
        | ok v =>
          rw [hv] at hc
          simp only [bind, Except.bind, Except.ok.injEq] at hc
          subst hc
          split
          · refine ⟨WF2_setIn hw _ _ _, fun k hk => ?_⟩
            show Dict.get? (setIn st.1 n c v) k = _
            unfold setIn
            rw [Dict.get?_set, if_neg (Ne.symm hk)]
          · split <;> exact ⟨hw, fun _ _ => rfl⟩
      obtain ⟨h1, h2⟩ := ih st1 hs key.1
      exact ⟨h1, fun k hk => (h2 k hk).trans (key.2 k hk)⟩

def Lined (d : Dict Nat Attrs) : Prop := Dict.WF d ∧ ∀ k a, Dict.get? d k = some a → HasLine a

theorem lineStep_lined (st st' : Parts) (e : Nat × String) (h : lineStep f st e = .ok st') (hl : Lined st.1) : Lined st'.1 := by
  unfold lineStep at h
  cases hg : f.groups e.2 with
  | none => rw [hg] at h; cases h; exact hl
  | some g =>
    rw [hg] at h
    cases hea : f.edgeAttr with
    | none => rw [hea] at h; cases h
    | some ea =>
      rw [hea] at h
      simp only [bind, Except.bind] at h
      cases h1 : getCol f g f.currID with
      | error _ => rw [h1] at h; cases h
      | ok c =>
        rw [h1] at h; simp only at h
        cases h2 : intOf f c with
        | error _ => rw [h2] at h; cases h
        | ok n =>
          rw [h2] at h; simp only at h
          cases h3 : getCol f g f.headID with
          | error _ => rw [h3] at h; cases h
          | ok d =>
            rw [h3] at h; simp only at h
            cases h4 : intOf f d with
            | error _ => rw [h4] at h; cases h
            | ok hd =>
              rw [h4] at h; simp only at h
              cases h5 : f.columns.foldlM (colStep f ea g n hd) st with
              | error _ => rw [h5] at h; cases h
              | ok st1 =>
                rw [h5] at h
                simp only [Except.ok.injEq] at h
                subst h
                obtain ⟨k1, k2⟩ := colFold_other ea g n hd f.columns st st1 h5 ⟨hl.1, fun k a ha => (hl.2 k a ha).1⟩
                refine ⟨(WF2_setIn k1 _ _ _).1, fun k a ha => ⟨(WF2_setIn k1 n "lid" (toString e.1)).2 k a ha, ?_⟩⟩
                have ha' : Dict.get? (Dict.set st1.1 n (Dict.set ((Dict.get? st1.1 n).getD []) "lid" (toString e.1))) k = some a := ha
                rw [Dict.get?_set] at ha'
                split at ha'
                · cases ha'
                  exact ⟨e.1, by rw [Dict.get?_set, if_pos rfl]⟩
                · rename_i hk
                  rw [k2 k (Ne.symm hk)] at ha'
                  exact (hl.2 k a ha').2

theorem fold_lined (ss : List (Nat × String)) (st st' : Parts) (h : ss.foldlM (lineStep f) st = .ok st') (hl : Lined st.1) : Lined st'.1 := by
  induction ss generalizing st with
  | nil => cases h; exact hl
  | cons e ss ih =>
    rw [List.foldlM_cons] at h
    cases h1 : lineStep f st e with
    | error _ => rw [h1] at h; cases h
    | ok st1 => rw [h1] at h; exact ih st1 h (lineStep_lined st st1 e h1 hl)

/-- Every node is without attributes or has a line. -/
def LinedG (d : Dict Nat Attrs) : Prop := ∀ k a, Dict.get? d k = some a → a = [] ∨ HasLine a

theorem hasLine_update (d e : Attrs) (hd : Dict.WF d) (h : HasLine e) : HasLine (Dict.update d e) := by
  obtain ⟨hw, k, hk⟩ := h
  refine ⟨Dict.WF_update hd _, k, ?_⟩
  rw [Dict.get?_update hw, hk]
  rfl

theorem addNode_lined (nodes : Dict Nat Attrs) (hn : ∀ e ∈ nodes, HasLine e.2) (g : Graph) (hg : LinedG g.nodes) :
    LinedG (nodes.foldl addNode g).nodes := by
  induction nodes generalizing g with
  | nil => exact hg
  | cons e l ih =>
    rw [List.foldl_cons]
    refine ih (fun x hx => hn x (by simp [hx])) _ ?_
    intro k a ha
    have ha' : Dict.get? (Dict.set g.nodes e.1 (Dict.update ((Dict.get? g.nodes e.1).getD []) e.2)) k = some a := ha
    rw [Dict.get?_set] at ha'
    split at ha'
    · cases ha'
      refine .inr (hasLine_update _ _ ?_ (hn e (by simp)))
      cases h1 : Dict.get? g.nodes e.1 with
      | none => exact Dict.WF_nil
      | some b =>
        rcases hg _ _ h1 with rfl | h
        · exact Dict.WF_nil
        · exact h.1
    · exact hg k a ha'

theorem touch_lined {d : Dict Nat Attrs} (h : LinedG d) (v : Nat) : LinedG (touch d v) := by
  unfold touch
  split
  · exact h
  · intro k a ha
    rw [Dict.get?_set] at ha
    split at ha
    · cases ha; exact .inl rfl
    · exact h k a ha

theorem addEdge_lined (es : Dict (Nat × Nat) Attrs) (g g' : Graph) (hg : LinedG g.nodes) (h : es.foldlM addEdge g = .ok g') : LinedG g'.nodes := by
  induction es generalizing g with
  | nil => cases h; exact hg
  | cons e l ih =>
    rw [List.foldlM_cons] at h
    cases h1 : addEdge g e with
    | error _ => rw [h1] at h; cases h
    | ok g1 =>
      rw [h1] at h
      refine ih g1 ?_ h
      unfold addEdge at h1
      split at h1
      · cases h1
      · cases h1
        exact touch_lined (touch_lined hg _) _

/-- Every node of the graph of a sentence has a line, but for nodes without attributes. -/
theorem graph_lined {s : List (Nat × String)} {g : Graph} (h : sentenceGraph f s = .ok g) : LinedG g.nodes := by
  unfold sentenceGraph at h
  split at h
  · cases h
  · simp only [bind, Except.bind] at h
    cases h1 : s.foldlM (lineStep f) ([], []) with
    | error _ => rw [h1] at h; cases h
    | ok st =>
      rw [h1] at h
      have hl := fold_lined s ([], []) st h1 ⟨Dict.WF_nil, fun k a ha => by cases ha⟩
      unfold generateGraph at h
      refine addEdge_lined _ _ _ (addNode_lined _ (fun e he => hl.2 e.1 e.2 (Dict.get?_of_mem hl.1 he)) _ ?_) h
      intro k a ha; cases ha

/-- Every node of a match has a line or no attributes. -/
def LinedM (mt : Match) : Prop := ∀ e ∈ mt.nodes, e.2 = [] ∨ HasLine e.2

theorem addOne_lined {s : Graph} (hs : LinedG s.nodes) {m : Macro} {d : Dict Nat Nat} {mt : Match} (h : addOne s none m d = .ok (some mt)) : LinedM mt := by
  unfold addOne at h
  cases hn : List.mapM (nodeAttrs s) d with
  | error e => rw [hn] at h; cases h
  | ok nodes =>
    rw [hn] at h
    simp only [bind, Except.bind] at h
    cases hp : passes m nodes with
    | error e => rw [hp] at h; cases h
    | ok b =>
      rw [hp] at h
      cases b with
      | false => cases h
      | true =>
        simp only [if_true] at h
        cases he : List.mapM (edgeAttrs s d) m.graph.edges.keys with
        | error e => rw [he] at h; cases h
        | ok edges =>
          rw [he] at h
          cases h
          show ∀ e ∈ nodes, _
          rw [mapM_forall2] at hn
          clear hp he
          induction hn with
          | nil => intro e he; cases he
          | cons h1 _ ih =>
            rename_i x y l1 l2 _
            intro e he
            rcases List.mem_cons.1 he with rfl | he
            · unfold nodeAttrs getD at h1
              cases hx : Dict.get? s.nodes x.2 with
              | none => rw [hx] at h1; cases h1
              | some a => rw [hx] at h1; cases h1; exact hs _ _ hx
            · exact ih e he

theorem matchOne_lined {m m' : Macro} {s : List (Nat × String)} (h : matchOne rx istree f none m s = .ok m') (hm : ∀ mt ∈ m.found, LinedM mt) :
    ∀ mt ∈ m'.found, LinedM mt := by
  unfold matchOne at h
  cases hg : sentenceGraph f s with
  | error e => rw [hg] at h; cases h
  | ok g =>
    rw [hg] at h
    simp only [bind, Except.bind] at h
    cases hi : istree g with
    | false => rw [hi] at h; cases h; exact hm
    | true =>
      rw [hi] at h
      simp only [if_true] at h
      unfold treeMatch at h
      simp only [if_true, bind, Except.bind] at h
      cases ht : treeMaps rx g m.graph m.depth with
      | error e => rw [ht] at h; cases h
      | ok maps =>
        rw [ht] at h
        simp only at h
        cases hx : maps.mapM (addOne g none m) with
        | error e => rw [hx] at h; cases h
        | ok xs =>
          rw [hx] at h
          cases h
          intro mt hmt
          rcases List.mem_append.1 hmt with h1 | h1
          · exact hm mt h1
          · obtain ⟨o, ho, h2⟩ := List.mem_filterMap.1 h1
            simp only [id] at h2
            subst h2
            rw [mapM_forall2] at hx
            clear h1 ht hmt
            induction hx with
            | nil => cases ho
            | cons h1 _ ih =>
              rcases List.mem_cons.1 ho with e | ho
              · exact addOne_lined (graph_lined hg) (e ▸ h1)
              · exact ih ho

theorem found_lined (targets : List String) (c : CorpusFile) {m : Macro} (h : m.found = []) :
    ∀ mt ∈ foundOne rx istree f false targets c m, LinedM mt := by
  unfold foundOne
  have hf : fileId false c = none := rfl
  rw [hf]
  have H : ∀ (ss : List (List (Nat × String))) (a a' : Macro), ss.foldlM (matchOne rx istree f none) a = .ok a' → (∀ mt ∈ a.found, LinedM mt) →
      ∀ mt ∈ a'.found, LinedM mt := by
    intro ss
    induction ss with
    | nil => intro a a' ha; cases ha; exact id
    | cons s ss ih =>
      intro a a' ha hm
      rw [List.foldlM_cons] at ha
      cases h1 : matchOne rx istree f none a s with
      | error e => rw [h1] at ha; cases ha
      | ok a1 => rw [h1] at ha; exact ih a1 a' ha (matchOne_lined h1 hm)
  cases hr : (readSentence f c.lines).foldlM (matchOne rx istree f none) { m with filter := some targets } with
  | error e => intro mt hmt; cases hmt
  | ok m' =>
    refine H _ _ _ hr ?_
    intro mt hmt
    have : mt ∈ m.found := hmt
    rw [h] at this
    cases this

/-! ## Names of tokens -/

theorem targetAttrs_tag {pat item : Attrs} (F : String) (base : List (String × Nat)) (h : ∀ e ∈ base, isTokenAttr e.1 = false) :
    base.mapM (targetAttr grp true pat (tagAttrs F item)) = base.mapM (targetAttr grp false pat item) := by
  refine mapM_congr_mem (fun e he => ?_)
  have h' := h e he
  unfold targetAttr
  rw [h']
  simp only [Bool.false_eq_true, if_false]
  unfold attrRepr getD
  rw [get?_tagAttrs F item e.1 (by intro e'; rw [e'] at h'; revert h'; decide) (by intro e'; rw [e'] at h'; revert h'; decide)]

theorem vals_some {pat item : Attrs} (base : List (String × Nat)) (h : ∀ e ∈ base, isTokenAttr e.1 = false) (hb : base ≠ []) {vals : List (Option String)}
    (hv : base.mapM (targetAttr grp false pat item) = .ok vals) : vals.filterMap id ≠ [] ∧ item ≠ [] := by
  cases base with
  | nil => exact absurd rfl hb
  | cons e l =>
    rw [List.mapM_cons] at hv
    have h' := h e (by simp)
    unfold targetAttr at hv
    rw [h'] at hv
    simp only [Bool.false_eq_true, if_false, bind, Except.bind] at hv
    unfold attrRepr getD at hv
    cases h1 : Dict.get? pat e.1 with
    | none => rw [h1] at hv; cases hv
    | some r =>
      rw [h1] at hv
      simp only [bind, Except.bind] at hv
      cases h2 : Dict.get? item e.1 with
      | none => rw [h2] at hv; cases hv
      | some v =>
        rw [h2] at hv
        simp only at hv
        refine ⟨?_, by rintro rfl; cases h2⟩
        split at hv
        · cases hv
        · cases hv
          simp

/-- The name of a token is the string of its type, the file and the line. -/
theorem targetStr_tag {m : Macro} (hm : TokenMacro m) {mt : Match} (hl : LinedM mt) (F r : String) :
    targetStr grp true m (tagM F mt) = .ok r ↔
      ∃ t v, targetStr grp false m mt = .ok t ∧ lineOf m mt = some v ∧ r = tokenName t F v := by
  obtain ⟨base, fa, i, j, ha, hfa, hb, hbt⟩ := hm.attrs
  unfold targetStr
  rw [getD_tag, ha, hm.conn]
  cases hp : getD m.graph.nodes m.targetIdx with
  | error e => simp [bind, Except.bind]
  | ok pat =>
    simp only [bind, Except.bind]
    cases hi : getD mt.nodes m.targetIdx with
    | error e => simp [Except.map]
    | ok item =>
      have hi' : Dict.get? mt.nodes m.targetIdx = some item := by
        unfold getD at hi
        cases hx : Dict.get? mt.nodes m.targetIdx with
        | none => rw [hx] at hi; cases hi
        | some a => rw [hx] at hi; cases hi; rfl
      simp only [Except.map]
      rw [List.mapM_append, List.mapM_append, targetAttrs_tag F base hbt]
      cases hv : base.mapM (targetAttr grp false pat item) with
      | error e => simp [bind, Except.bind]
      | ok vals =>
        obtain ⟨hne, hit⟩ := vals_some base hbt hb hv
        obtain ⟨-, k, hk⟩ : HasLine item := by
          rcases hl _ (Dict.mem_of_get? hi') with h | h
          · exact absurd h hit
          · exact h
        have hlid : lineOf m mt = some (toString k) := by unfold lineOf; rw [hi']; exact hk
        have e1 : [(fa, i), ("lid", j)].mapM (targetAttr grp true pat (tagAttrs F item)) = .ok [some F, some (toString k)] := by
          have hlt : Dict.get? (tagAttrs F item) "lid" = some (toString k) := by
            rw [get?_tagAttrs F item "lid" (by decide) (by decide), hk]
          have hft : Dict.get? (tagAttrs F item) fa = some F := by
            unfold tagAttrs
            rcases hfa with rfl | rfl
            · rw [Dict.get?_set, if_pos rfl]
            · rw [Dict.get?_set, if_neg (by decide), Dict.get?_set, if_pos rfl]
          have hta : isTokenAttr fa = true := by rcases hfa with rfl | rfl <;> decide
          have htl : isTokenAttr "lid" = true := by decide
          rw [List.mapM_cons, List.mapM_cons, List.mapM_nil]
          unfold targetAttr getD
          simp only [hta, htl, hft, hlt, if_true]
          rfl
        have e2 : [(fa, i), ("lid", j)].mapM (targetAttr grp false pat item) = .ok [none, none] := by
          have hta : isTokenAttr fa = true := by rcases hfa with rfl | rfl <;> decide
          have htl : isTokenAttr "lid" = true := by decide
          rw [List.mapM_cons, List.mapM_cons, List.mapM_nil]
          unfold targetAttr
          simp only [hta, htl, if_true]
          rfl
        rw [e1, e2]
        simp only [bind, Except.bind, pure, Except.pure, Except.ok.injEq, List.filterMap_append]
        have f1 : [some F, some (toString k)].filterMap id = [F, toString k] := rfl
        have f2 : ([none, none] : List (Option String)).filterMap id = [] := rfl
        rw [f1, f2, List.append_nil, hlid]
        have e3 : "/".intercalate (vals.filterMap id ++ [F, toString k]) = tokenName ("/".intercalate (vals.filterMap id)) F (toString k) := by
          rw [String.intercalate_append_of_ne_nil hne (by simp)]
          rw [String.intercalate_cons_cons, String.intercalate_singleton]
          unfold tokenName
          simp only [String.append_assoc]
        rw [e3]
        constructor
        · rintro rfl; exact ⟨_, _, rfl, rfl, rfl⟩
        · rintro ⟨t, v, rfl, hv', rfl⟩
          cases hv'
          rfl

theorem line_noslash (k : Nat) : '/' ∉ (toString k).toList := by
  intro h
  have e : (toString k).toList = Nat.toDigits 10 k := by simp
  rw [e] at h
  have := Nat.isDigit_of_mem_toDigits (by decide) (by decide) h
  revert this
  decide

theorem lineOf_num {m : Macro} {mt : Match} (hl : LinedM mt) {v : String} (h : lineOf m mt = some v) : '/' ∉ v.toList := by
  unfold lineOf at h
  cases hi : Dict.get? mt.nodes m.targetIdx with
  | none => rw [hi] at h; cases h
  | some item =>
    rw [hi] at h
    have h' : Dict.get? item "lid" = some v := h
    rcases hl _ (Dict.mem_of_get? hi) with h1 | ⟨-, k, hk⟩
    · have h1' : item = [] := h1
      rw [h1'] at h'; cases h'
    · have hk' : Dict.get? item "lid" = some (toString k) := hk
      rw [h'] at hk'
      cases hk'
      exact line_noslash k

theorem line_of_target {m : Macro} (hm : TokenMacro m) {mt : Match} (hl : LinedM mt) {t : String} (h : targetStr grp false m mt = .ok t) :
    ∃ v, lineOf m mt = some v := by
  obtain ⟨base, fa, i, j, ha, hfa, hb, hbt⟩ := hm.attrs
  unfold targetStr at h
  cases hp : getD m.graph.nodes m.targetIdx with
  | error e => rw [hp] at h; cases h
  | ok pat =>
    rw [hp] at h
    simp only [bind, Except.bind] at h
    unfold getD at h
    cases hi : Dict.get? mt.nodes m.targetIdx with
    | none => rw [hi] at h; cases h
    | some item =>
      rw [hi, ha] at h
      simp only at h
      rw [List.mapM_append] at h
      cases hv : base.mapM (targetAttr grp false pat item) with
      | error e => rw [hv] at h; cases h
      | ok vals =>
        rcases hl _ (Dict.mem_of_get? hi) with h1 | ⟨-, k, hk⟩
        · exact absurd h1 (vals_some base hbt hb hv).2
        · exact ⟨_, by unfold lineOf; rw [hi]; exact hk⟩

/-- What a row of the matrix of tokens counts: a match of the type, the feature and the line. -/
def hasLineStrings (grp : String → String → Nat → Option String) (m : Macro) (t ft v : String) (mt : Match) : Bool :=
  hasStrings grp false m t ft mt && decide (lineOf m mt = some v)

theorem hasStrings_tag {m : Macro} (hm : TokenMacro m) {mt : Match} (hl : LinedM mt) (F r ft : String) :
    hasStrings grp true m r ft (tagM F mt) = true ↔ ∃ t v, hasLineStrings grp m t ft v mt = true ∧ r = tokenName t F v := by
  unfold hasLineStrings hasStrings
  rw [featureStr_tag hm]
  simp only [Bool.and_eq_true, decide_eq_true_eq, targetStr_tag hm hl]
  constructor
  · rintro ⟨⟨t, v, h1, h2, h3⟩, h4⟩; exact ⟨t, v, ⟨⟨h1, h4⟩, h2⟩, h3⟩
  · rintro ⟨t, v, ⟨⟨h1, h4⟩, h2⟩, h3⟩; exact ⟨⟨t, v, h1, h2, h3⟩, h4⟩

/-- The count of one row of tokens in one file. -/
theorem count_token {m : Macro} (hm : TokenMacro m) {L : List Match} (hL : ∀ mt ∈ L, LinedM mt) {c F t ft v : String} (hc : '/' ∉ c.toList)
    (hF : '/' ∉ F.toList) (hv : '/' ∉ v.toList) :
    (L.map (tagM c)).countP (hasStrings grp true m (tokenName t F v) ft) = if c = F then L.countP (hasLineStrings grp m t ft v) else 0 := by
  rw [List.countP_map]
  have key : ∀ mt ∈ L, ((hasStrings grp true m (tokenName t F v) ft ∘ tagM c) mt = true ↔ c = F ∧ hasLineStrings grp m t ft v mt = true) := by
    intro mt hmt
    show hasStrings grp true m (tokenName t F v) ft (tagM c mt) = true ↔ _
    rw [hasStrings_tag hm (hL mt hmt)]
    constructor
    · rintro ⟨t', v', h, e⟩
      have hv' : '/' ∉ v'.toList := lineOf_num (m := m) (hL mt hmt) (by
        unfold hasLineStrings at h
        simp only [Bool.and_eq_true, decide_eq_true_eq] at h
        exact h.2)
      obtain ⟨rfl, rfl, rfl⟩ := (tokenName_inj hF hv hc hv').1 e
      exact ⟨rfl, h⟩
    · rintro ⟨rfl, h⟩
      exact ⟨t, v, h, rfl⟩
  split
  · rename_i h
    exact List.countP_congr (fun mt hmt => by rw [key mt hmt]; exact ⟨fun h => h.2, fun h' => ⟨h, h'⟩⟩)
  · rename_i h
    rw [List.countP_eq_zero]
    intro mt hmt hx
    exact h ((key mt hmt).1 hx).1

theorem jobOk_tok {targets : List String} {macros : List Macro} (hfresh : ∀ m ∈ macros, m.found = []) (c : CorpusFile) :
    JobOk rx istree f true targets macros c ↔ JobOk rx istree f false targets macros c := by
  rw [jobOk_iff, jobOk_iff]
  refine and_congr_right (fun _ => ?_)
  have ht : fileId true c = some c.base := rfl
  have hf : fileId false c = none := rfl
  rw [ht, hf]
  refine forall₂_congr (fun m hm => ?_)
  have e : ({ m with filter := some targets } : Macro) = tagMacro c.base { m with filter := some targets } := by
    unfold tagMacro; simp [hfresh m hm]
  constructor
  · rintro ⟨m', h⟩
    rw [e, fold_tag] at h
    cases hr : (readSentence f c.lines).foldlM (matchOne rx istree f none) { m with filter := some targets } with
    | error e => rw [hr] at h; cases h
    | ok a => exact ⟨a, rfl⟩
  · rintro ⟨m', h⟩
    rw [e, fold_tag, h]
    exact ⟨_, rfl⟩

theorem valid_of_matrix {tok : Bool} {ms : List Macro} {mtx : Mtx String Int} (h : matchMatrix grp tok ms = .ok mtx) : Valid mtx := by
  have hok : ∃ ps, matchPairs grp tok ms = .ok ps := by
    cases hp : matchPairs grp tok ms with
    | ok ps => exact ⟨ps, rfl⟩
    | error e => unfold matchMatrix at h; rw [hp] at h; cases h
  have hne : ∃ m ∈ ms, m.found ≠ [] := by
    by_contra hc
    have : ∀ m ∈ ms, m.found = [] := fun m hm => by
      by_contra hm'
      exact hc ⟨m, hm, hm'⟩
    rw [C67_false_none grp tok ms this] at h
    cases h
  obtain ⟨mtx', h1, h2, -⟩ := C67_partial grp tok ms hok hne
  rw [h] at h1
  cases h1
  exact h2

theorem mem_rows_of_entry {mtx : Mtx String Int} {r c : String} (h : entry mtx r c ≠ 0) : r ∈ mtx.rows := by
  by_contra hr
  apply h
  unfold entry
  rw [List.idxOf?_eq_none_iff.2 hr]

/-- **C212, one token.** In token mode the entry of the word at line `v` of the files named `F` counts the matches of the patterns at
that line of these files with the type and the feature: those which type mode counts for the type.  Missing from the full claim: two
files may have one name, see `C212_false`. -/
theorem C212_exact {targets : List String} {macros : List Macro} {files : List CorpusFile}
    (hmac : ∀ m ∈ macros, TokenMacro m) (hbase : ∀ c ∈ files, '/' ∉ c.base.toList)
    (hj : ∀ c ∈ files, ∃ r, depJob rx istree f none targets macros c.lines = .ok r) {W : Nat} {acc : Nat → List Match}
    (hcall : DepCall (depFound rx istree f true targets macros) W files (fun _ => []) acc) {mtx : Mtx String Int}
    (hm : matchMatrix grp true (withFound macros acc) = .ok mtx) {t F v ft : String} (hF : '/' ∉ F.toList) (hv : '/' ∉ v.toList) :
    entry mtx (tokenName t F v) ft =
      (macros.map (fun m => ((files.filter (fun c => decide (c.base = F))).map (fun c =>
        (foundOne rx istree f false targets c m).countP (hasLineStrings grp m t ft v))).sum)).sum := by
  have hj' : ∀ c ∈ files, JobOk rx istree f true targets macros c := fun c hc => (jobOk_tok (fun m hm => (hmac m hm).fresh) c).2 (hj c hc)
  rw [build_entry hj' hcall hm]
  congr 1
  unfold total
  congr 1
  refine List.map_congr_left (fun m hm => ?_)
  have e : files.map (fun c => (foundOne rx istree f true targets c m).countP (hasStrings grp true m (tokenName t F v) ft)) =
      files.map (fun c => if c.base = F then (foundOne rx istree f false targets c m).countP (hasLineStrings grp m t ft v) else 0) := by
    refine List.map_congr_left (fun c hc => ?_)
    rw [foundOne_tag targets c (hmac m hm).fresh, count_token (hmac m hm) (found_lined targets c (hmac m hm).fresh) (hbase c hc) hF hv]
  rw [e]
  clear e hj' hj hcall hbase
  induction files with
  | nil => rfl
  | cons c l ih =>
    rw [List.map_cons, List.sum_cons, ih, List.filter_cons]
    by_cases h : c.base = F
    · rw [if_pos h, if_pos (by simpa using h), List.map_cons, List.sum_cons]
    · rw [if_neg h, if_neg (by simpa using h), Nat.zero_add]

/-- The sum over the rows that a key can take. -/
theorem sum_countP_keys {α : Type} (key : α → Option String) (L : List α) (R : List String) (hR : R.Nodup) (hk : ∀ x ∈ L, ∀ r, key x = some r → r ∈ R) :
    (R.map (fun r => L.countP (fun x => decide (key x = some r)))).sum = L.countP (fun x => (key x).isSome) := by
  induction L with
  | nil => simp
  | cons x L ih =>
    have ih' := ih (fun y hy => hk y (by simp [hy]))
    simp only [List.countP_cons, decide_eq_true_eq]
    rw [List.sum_map_add, ih']
    congr 1
    cases hx : key x with
    | none => simp
    | some r =>
      have hr := hk x (by simp) r hx
      simp only [Option.some.injEq, Option.isSome_some, if_true]
      clear ih ih' hk hx
      induction R with
      | nil => cases hr
      | cons a R ihR =>
        rw [List.map_cons, List.sum_cons]
        rw [List.nodup_cons] at hR
        rcases List.mem_cons.1 hr with rfl | hr
        · rw [if_pos rfl]
          have : (R.map (fun b => if r = b then 1 else 0)).sum = 0 := by
            have e : R.map (fun b => if r = b then 1 else 0) = R.map (fun _ => 0) :=
              List.map_congr_left (fun b hb => if_neg (fun (e : r = b) => hR.1 (e ▸ hb)))
            rw [e]; simp
          rw [this]
        · have hne : r ≠ a := fun e => hR.1 (e ▸ hr)
          rw [if_neg hne, ihR hR.2 hr]

/-- **C212, all tokens.** The rows of the tokens of a type add up to the row of the type in type mode, for every corpus, all numbers of
workers and schedules of the two calls. -/
theorem C212_sum {targets : List String} {macros : List Macro} {files : List CorpusFile}
    (hmac : ∀ m ∈ macros, TokenMacro m) (hbase : ∀ c ∈ files, '/' ∉ c.base.toList)
    (hj : ∀ c ∈ files, ∃ r, depJob rx istree f none targets macros c.lines = .ok r) {W W' : Nat} {acc acc' : Nat → List Match}
    (hcall : DepCall (depFound rx istree f false targets macros) W files (fun _ => []) acc)
    (hcall' : DepCall (depFound rx istree f true targets macros) W' files (fun _ => []) acc') {mtype mtok : Mtx String Int}
    (hm : matchMatrix grp false (withFound macros acc) = .ok mtype) (hm' : matchMatrix grp true (withFound macros acc') = .ok mtok) (t ft : String) :
    entry mtype t ft = ((mtok.rows.filter (fun r => decide (typeOfToken r = t))).map (fun r => entry mtok r ft)).sum := by
  have hj0 : ∀ c ∈ files, JobOk rx istree f false targets macros c := hj
  have hj' : ∀ c ∈ files, JobOk rx istree f true targets macros c := fun c hc => (jobOk_tok (fun m hm => (hmac m hm).fresh) c).2 (hj c hc)
  have hent := build_entry (grp := grp) hj' hcall' hm'
  set R := mtok.rows.filter (fun r => decide (typeOfToken r = t)) with hR
  have hRn : R.Nodup := (valid_of_matrix hm').rows.filter _
  rw [build_entry hj0 hcall hm]
  have e0 : R.map (fun r => entry mtok r ft) = R.map (fun r => ((total rx istree f true grp targets files macros r ft : Nat) : Int)) :=
    List.map_congr_left (fun r _ => hent r ft)
  rw [e0]
  have e1 : (R.map (fun r => ((total rx istree f true grp targets files macros r ft : Nat) : Int))).sum =
      (((R.map (fun r => total rx istree f true grp targets files macros r ft)).sum : Nat) : Int) := by
    clear_value R
    clear hR hRn e0
    induction R with
    | nil => rfl
    | cons a l ih => simp only [List.map_cons, List.sum_cons, ih, Nat.cast_add]
  rw [e1]
  congr 1
  have e3 : (R.map (fun r => total rx istree f true grp targets files macros r ft)).sum = (macros.map (fun m => (files.map (fun c =>
      (R.map (fun r => (foundOne rx istree f true targets c m).countP (hasStrings grp true m r ft))).sum)).sum)).sum := by
    unfold total
    rw [sum_comm_lists]
    congr 1
    refine List.map_congr_left (fun m hmm => ?_)
    rw [sum_comm_lists]
  rw [e3]
  unfold total
  congr 1
  refine List.map_congr_left (fun m hmm => ?_)
  congr 1
  refine List.map_congr_left (fun c hc => ?_)
  have hl := found_lined (rx := rx) (istree := istree) (f := f) targets c (hmac m hmm).fresh
  rw [foundOne_tag targets c (hmac m hmm).fresh]
  let key : Match → Option String := fun mt => if hasStrings grp false m t ft mt then (lineOf m mt).map (tokenName t c.base) else none
  have hkey : ∀ mt ∈ foundOne rx istree f false targets c m, ∀ r, key mt = some r →
      typeOfToken r = t ∧ hasStrings grp true m r ft (tagM c.base mt) = true := by
    intro mt hmt r hr
    simp only [key] at hr
    split at hr
    · rename_i h
      obtain ⟨v, hv, rfl⟩ := Option.map_eq_some_iff.1 hr
      refine ⟨typeOfToken_name _ _ _ (hbase c hc) (lineOf_num (hl mt hmt) hv), (hasStrings_tag (hmac m hmm) (hl mt hmt) _ _ _).2 ⟨t, v, ?_, rfl⟩⟩
      unfold hasLineStrings
      simp [h, hv]
    · cases hr
  have hmem : ∀ mt ∈ foundOne rx istree f false targets c m, ∀ r, key mt = some r → r ∈ R := by
    intro mt hmt r hr
    obtain ⟨h1, h2⟩ := hkey mt hmt r hr
    rw [hR, List.mem_filter]
    refine ⟨?_, by simpa using h1⟩
    apply mem_rows_of_entry (c := ft)
    rw [hent r ft]
    have : 0 < total rx istree f true grp targets files macros r ft := by
      unfold total
      rw [List.sum_pos_iff_exists_pos_nat]
      refine ⟨_, List.mem_map.2 ⟨m, hmm, rfl⟩, ?_⟩
      rw [List.sum_pos_iff_exists_pos_nat]
      refine ⟨_, List.mem_map.2 ⟨c, hc, rfl⟩, ?_⟩
      rw [List.countP_pos_iff]
      refine ⟨tagM c.base mt, ?_, h2⟩
      rw [foundOne_tag targets c (hmac m hmm).fresh]
      exact List.mem_map_of_mem hmt
    omega
  have e2 : R.map (fun r => ((foundOne rx istree f false targets c m).map (tagM c.base)).countP (hasStrings grp true m r ft)) =
      R.map (fun r => (foundOne rx istree f false targets c m).countP (fun mt => decide (key mt = some r))) := by
    refine List.map_congr_left (fun r hr => ?_)
    rw [List.countP_map]
    refine List.countP_congr (fun mt hmt => ?_)
    show hasStrings grp true m r ft (tagM c.base mt) = true ↔ _
    rw [decide_eq_true_eq]
    refine ⟨fun h => ?_, fun h => (hkey mt hmt r h).2⟩
    obtain ⟨t', v, h1, rfl⟩ := (hasStrings_tag (hmac m hmm) (hl mt hmt) _ _ _).1 h
    have ht : typeOfToken (tokenName t' c.base v) = t := by simpa using (List.mem_filter.1 hr).2
    unfold hasLineStrings at h1
    simp only [Bool.and_eq_true, decide_eq_true_eq] at h1
    rw [typeOfToken_name _ _ _ (hbase c hc) (lineOf_num (hl mt hmt) h1.2)] at ht
    subst ht
    simp only [key, h1.1, if_true, h1.2, Option.map_some]
  rw [e2, sum_countP_keys key _ R hRn hmem]
  refine (List.countP_congr (fun mt hmt => ?_)).symm
  simp only [key]
  split
  · rename_i h
    have h' := h
    unfold hasStrings at h'
    simp only [Bool.and_eq_true, decide_eq_true_eq] at h'
    obtain ⟨v, hv⟩ := line_of_target (hmac m hmm) (hl mt hmt) h'.1
    simp [hv, h]
  · rename_i h
    simp [h]

/-- **C212** for files whose names without directories and extensions differ: the entry of the word at line `v` of a file counts the
matches of the patterns at that line of that file. -/
theorem C212_partial {targets : List String} {macros : List Macro} {files : List CorpusFile}
    (hmac : ∀ m ∈ macros, TokenMacro m) (hbase : ∀ c ∈ files, '/' ∉ c.base.toList) (hdiff : (files.map CorpusFile.base).Nodup)
    (hj : ∀ c ∈ files, ∃ r, depJob rx istree f none targets macros c.lines = .ok r) {W : Nat} {acc : Nat → List Match}
    (hcall : DepCall (depFound rx istree f true targets macros) W files (fun _ => []) acc) {mtx : Mtx String Int}
    (hm : matchMatrix grp true (withFound macros acc) = .ok mtx) {t v ft : String} {c : CorpusFile} (hc : c ∈ files) (hv : '/' ∉ v.toList) :
    entry mtx (tokenName t c.base v) ft =
      (macros.map (fun m => (foundOne rx istree f false targets c m).countP (hasLineStrings grp m t ft v))).sum := by
  rw [C212_exact hmac hbase hj hcall hm (hbase c hc) hv]
  have : files.filter (fun d => decide (d.base = c.base)) = [c] := by
    clear hj hcall hbase
    induction files with
    | nil => cases hc
    | cons d l ih =>
      rw [List.map_cons, List.nodup_cons] at hdiff
      rcases List.mem_cons.1 hc with rfl | hc
      · rw [List.filter_cons, if_pos (by simp)]
        congr 1
        rw [List.filter_eq_nil_iff]
        intro x hx
        simp only [decide_eq_true_eq]
        intro e
        exact hdiff.1 (e ▸ List.mem_map_of_mem hx)
      · rw [List.filter_cons, if_neg (by
          simp only [decide_eq_true_eq]
          intro e
          exact hdiff.1 (e ▸ List.mem_map_of_mem hc))]
        exact ih hdiff.2 hc
  rw [this]
  simp

theorem matrix_ok_iff {tok : Bool} {ms : List Macro} :
    (∃ mtx, matchMatrix grp tok ms = .ok mtx) ↔
      (∀ m ∈ ms, ∀ mt ∈ m.found, (∃ t, targetStr grp tok m mt = .ok t) ∧ ∃ ft, featureStr grp m mt = .ok ft) ∧ ∃ m ∈ ms, m.found ≠ [] := by
  have hpair : ∀ m mt, (∃ p, pairOf grp tok m mt = .ok p) ↔ (∃ t, targetStr grp tok m mt = .ok t) ∧ ∃ ft, featureStr grp m mt = .ok ft := by
    intro m mt
    unfold pairOf
    cases h1 : targetStr grp tok m mt with
    | error e => simp [bind, Except.bind]
    | ok t' =>
      cases h2 : featureStr grp m mt with
      | error e => simp [bind, Except.bind]
      | ok f' => simp [bind, Except.bind]
  constructor
  · rintro ⟨mtx, h⟩
    constructor
    · intro m hm mt hmt
      rw [← hpair]
      unfold matchMatrix matchPairs at h
      cases hl : ms.mapM (macroPairs grp tok) with
      | error e => rw [hl] at h; cases h
      | ok l =>
        obtain ⟨ps, h1⟩ := mapM_mem_ok hl hm
        unfold macroPairs at h1
        obtain ⟨p, hp⟩ := mapM_mem_ok h1 hmt
        exact ⟨p, hp⟩
    · by_contra hc
      have : ∀ m ∈ ms, m.found = [] := fun m hm => by
        by_contra hm'
        exact hc ⟨m, hm, hm'⟩
      rw [C67_false_none grp tok ms this] at h
      cases h
  · rintro ⟨h1, h2⟩
    have : ∃ ps, matchPairs grp tok ms = .ok ps := by
      obtain ⟨l, hl⟩ := mapM_all_ok (macroPairs grp tok) ms (fun m hm => mapM_all_ok (pairOf grp tok m) m.found (fun mt hmt => (hpair m mt).2 (h1 m hm mt hmt)))
      exact ⟨l.flatten, by unfold matchPairs; rw [hl]; rfl⟩
    obtain ⟨mtx, h3, -⟩ := C67_partial grp tok ms this h2
    exact ⟨mtx, h3⟩

theorem mem_withFound {tok : Bool} {targets : List String} {files : List CorpusFile} {macros : List Macro}
    (hj : ∀ c ∈ files, JobOk rx istree f tok targets macros c) {W : Nat} {acc : Nat → List Match}
    (hcall : DepCall (depFound rx istree f tok targets macros) W files (fun _ => []) acc) (P : Macro → Match → Prop)
    (hP : ∀ m F mt, P { m with found := F } mt ↔ P m mt) :
    (∃ m ∈ withFound macros acc, ∃ mt ∈ m.found, P m mt) ↔ ∃ m ∈ macros, ∃ c ∈ files, ∃ mt ∈ foundOne rx istree f tok targets c m, P m mt := by
  have hp := (C06_first_call (κ := String) _ W files acc hcall).1
  have hi : ∀ e ∈ macros.zipIdx, macros[e.2]? = some e.1 := by
    intro e he
    obtain ⟨_, h, he'⟩ := List.mem_zipIdx he
    rw [List.getElem?_eq_getElem (by omega)]
    simp only [Nat.sub_zero] at he'
    rw [he']
  unfold withFound
  constructor
  · rintro ⟨m, hm, mt, hmt, h⟩
    obtain ⟨e, he, rfl⟩ := List.mem_map.1 hm
    have hmt' : mt ∈ acc e.2 := hmt
    rw [(hp e.2).mem_iff, List.mem_flatMap] at hmt'
    obtain ⟨c, hc, hx⟩ := hmt'
    have hx' : mt ∈ depFound rx istree f tok targets macros c e.2 := hx
    rw [depFound_one (hj c hc) (hi e he)] at hx'
    exact ⟨e.1, (by
      have := hi e he
      exact List.mem_of_getElem? this), c, hc, mt, hx', (hP _ _ _).1 h⟩
  · rintro ⟨m, hm, c, hc, mt, hmt, h⟩
    obtain ⟨i, hi', rfl⟩ := List.getElem_of_mem hm
    refine ⟨{ macros[i] with found := acc i }, List.mem_map.2 ⟨(macros[i], i), ?_, rfl⟩, mt, ?_, (hP _ _ _).2 h⟩
    · rw [List.mem_zipIdx_iff_getElem?]
      exact List.getElem?_eq_getElem hi'
    · show mt ∈ acc i
      rw [(hp i).mem_iff, List.mem_flatMap]
      refine ⟨c, hc, ?_⟩
      show mt ∈ depFound rx istree f tok targets macros c i
      rw [depFound_one (hj c hc) (List.getElem?_eq_getElem hi')]
      exact hmt

/-- **C212, existence.** Token mode returns a matrix exactly if type mode does. -/
theorem C212_exists {targets : List String} {macros : List Macro} {files : List CorpusFile}
    (hmac : ∀ m ∈ macros, TokenMacro m)
    (hj : ∀ c ∈ files, ∃ r, depJob rx istree f none targets macros c.lines = .ok r) {W W' : Nat} {acc acc' : Nat → List Match}
    (hcall : DepCall (depFound rx istree f false targets macros) W files (fun _ => []) acc)
    (hcall' : DepCall (depFound rx istree f true targets macros) W' files (fun _ => []) acc') :
    (∃ mtx, matchMatrix grp true (withFound macros acc') = .ok mtx) ↔ ∃ mtx, matchMatrix grp false (withFound macros acc) = .ok mtx := by
  have hj0 : ∀ c ∈ files, JobOk rx istree f false targets macros c := hj
  have hj' : ∀ c ∈ files, JobOk rx istree f true targets macros c := fun c hc => (jobOk_tok (fun m hm => (hmac m hm).fresh) c).2 (hj c hc)
  let Bad (tok : Bool) (m : Macro) (mt : Match) : Prop := ¬ ((∃ t, targetStr grp tok m mt = .ok t) ∧ ∃ ft, featureStr grp m mt = .ok ft)
  have hB : ∀ (tok : Bool) (m : Macro) (F : List Match) (mt : Match), Bad tok { m with found := F } mt ↔ Bad tok m mt := by
    intro tok m F mt
    simp only [Bad]
    have h1 : targetStr grp tok { m with found := F } mt = targetStr grp tok m mt := rfl
    rw [h1, featureStr_found grp m m.filter F mt]
  have nf : ∀ (tok : Bool) (ms : List Macro), ((∃ mtx, matchMatrix grp tok ms = .ok mtx) ↔
      (¬ ∃ m ∈ ms, ∃ mt ∈ m.found, Bad tok m mt) ∧ ∃ m ∈ ms, ∃ mt ∈ m.found, True) := by
    intro tok ms
    rw [matrix_ok_iff]
    refine and_congr ?_ ?_
    · constructor
      · rintro h ⟨m, hm, mt, hmt, hb⟩; exact hb (h m hm mt hmt)
      · intro h m hm mt hmt
        by_contra hb
        exact h ⟨m, hm, mt, hmt, hb⟩
    · refine exists_congr (fun m => and_congr_right (fun _ => ?_))
      rw [List.ne_nil_iff_exists_cons]
      constructor
      · rintro ⟨b, l, e⟩; exact ⟨b, by rw [e]; simp, trivial⟩
      · rintro ⟨b, hb, -⟩
        cases hx : m.found with
        | nil => rw [hx] at hb; cases hb
        | cons x l => exact ⟨x, l, rfl⟩
  rw [nf, nf, mem_withFound hj0 hcall (Bad false) (hB false), mem_withFound hj0 hcall (fun _ _ => True) (fun _ _ _ => Iff.rfl),
    mem_withFound hj' hcall' (Bad true) (hB true), mem_withFound hj' hcall' (fun _ _ => True) (fun _ _ _ => Iff.rfl)]
  have step : ∀ (P Q : Macro → Match → Prop), (∀ m ∈ macros, ∀ mt, LinedM mt → ∀ F, (P m (tagM F mt) ↔ Q m mt)) →
      ((∃ m ∈ macros, ∃ c ∈ files, ∃ mt ∈ foundOne rx istree f true targets c m, P m mt) ↔
        ∃ m ∈ macros, ∃ c ∈ files, ∃ mt ∈ foundOne rx istree f false targets c m, Q m mt) := by
    intro P Q h
    refine exists_congr (fun m => and_congr_right (fun hm => exists_congr (fun c => and_congr_right (fun hc => ?_))))
    have hl := found_lined (rx := rx) (istree := istree) (f := f) targets c (hmac m hm).fresh
    rw [foundOne_tag targets c (hmac m hm).fresh]
    constructor
    · rintro ⟨mt, hmt, hP⟩
      obtain ⟨x, hx, rfl⟩ := List.mem_map.1 hmt
      exact ⟨x, hx, (h m hm x (hl x hx) _).1 hP⟩
    · rintro ⟨x, hx, hQ⟩
      exact ⟨_, List.mem_map_of_mem hx, (h m hm x (hl x hx) _).2 hQ⟩
  rw [step (Bad true) (Bad false), step (fun _ _ => True) (fun _ _ => True) (fun _ _ _ _ _ => Iff.rfl)]
  intro m hm mt hl F
  simp only [Bad]
  rw [featureStr_tag (hmac m hm)]
  refine not_congr (and_congr_left (fun _ => ?_))
  constructor
  · rintro ⟨r, hr⟩
    obtain ⟨t, v, h1, -, -⟩ := (targetStr_tag (hmac m hm) hl F r).1 hr
    exact ⟨t, h1⟩
  · rintro ⟨t, ht⟩
    obtain ⟨v, hv⟩ := line_of_target (hmac m hm) hl ht
    exact ⟨_, (targetStr_tag (hmac m hm) hl F _).2 ⟨t, v, ht, hv, rfl⟩⟩

/-! ## Two files of one name -/

/-- The template of `verbMacro` with file and line in the names of its targets. -/
def verbToken : Macro := { verbMacro none with targetAttrs := [("LEMMA", 1), ("POS", 1), ("fid", 1), ("lid", 1)] }

theorem verbToken_ok : TokenMacro verbToken where
  attrs := ⟨[("LEMMA", 1), ("POS", 1)], "fid", 1, 1, rfl, .inl rfl, by decide, by decide⟩
  feats := by decide
  conn := rfl
  fresh := rfl

/-- One worker processes a list of two files. -/
theorem two_files {J : Type} (found : J → Nat → List Match) (a b : J) :
    DepCall found 1 [a, b] (fun _ => []) (fun i => found a i ++ found b i) := by
  refine ⟨[.produce, .produce, .take 0, .work 0, .produce, .take 0, .work 0, .take 0, .work 0], ⟨[], [], [.done ()], [_, _]⟩, [_, _],
      by intro i; simp, rfl, ⟨rfl, ?_⟩, rfl, ?_⟩
  · intro w hw
    simp at hw
    exact Or.inl ⟨(), hw⟩
  · funext x; rfl

/-- The feature of the sample. -/
def eatFeature : String := "eat->[nsubj:boy,obj:#T#]"

/-- The matches of the sample file in token mode. -/
def sampleFound (tok : Bool) (c : CorpusFile) : Nat → List Match := depFound rx0 (fun _ => true) sampleFmt tok ["apple/N"] [verbToken] c

theorem sample_job_ok : ∃ r, depJob rx0 (fun _ => true) sampleFmt none ["apple/N"] [verbToken] sampleFile.lines = .ok r := by
  cases h : depJob rx0 (fun _ => true) sampleFmt none ["apple/N"] [verbToken] sampleFile.lines with
  | ok r => exact ⟨r, rfl⟩
  | error e =>
    exfalso
    have : (depJob rx0 (fun _ => true) sampleFmt none ["apple/N"] [verbToken] sampleFile.lines).toOption.isSome = true := by decide +kernel
    rw [h] at this
    cases this

/-- **C212 is false** for two files that differ in their directory or their extension only: the row of the word at line 4 of the one
file also counts the match at line 4 of the other. -/
theorem C212_false : ∃ (acc : Nat → List Match) (mtx : Mtx String Int),
    DepCall (sampleFound true) 1 [sampleFile, sampleFile] (fun _ => []) acc ∧ matchMatrix grp0 true (withFound [verbToken] acc) = .ok mtx ∧
    entry mtx (tokenName "apple/N" "a" "4") eatFeature = 2 ∧
    (foundOne rx0 (fun _ => true) sampleFmt false ["apple/N"] sampleFile verbToken).countP (hasLineStrings grp0 verbToken "apple/N" eatFeature "4") = 1 := by
  have hx : (matchMatrix grp0 true (withFound [verbToken] (fun i => sampleFound true sampleFile i ++ sampleFound true sampleFile i))).toOption.map
      (fun m : Mtx String Int => entry m (tokenName "apple/N" "a" "4") eatFeature) = some 2 := by decide +kernel
  cases h : matchMatrix grp0 true (withFound [verbToken] (fun i => sampleFound true sampleFile i ++ sampleFound true sampleFile i)) with
  | error e => rw [h] at hx; cases hx
  | ok mtx =>
    rw [h] at hx
    refine ⟨_, mtx, two_files _ _ _, h, by simpa [Except.toOption] using hx, by decide +kernel⟩

/-- Two files with different names: the two tokens of `apple` have a row each, with an entry of 1, and the entry of the type is 2. -/
example : ∃ mtype mtok : Mtx String Int,
    matchMatrix grp0 false (withFound [verbToken] (fun i => sampleFound false sampleFile i ++ sampleFound false ⟨"b", sampleFile.lines⟩ i)) = .ok mtype ∧
    matchMatrix grp0 true (withFound [verbToken] (fun i => sampleFound true sampleFile i ++ sampleFound true ⟨"b", sampleFile.lines⟩ i)) = .ok mtok ∧
    entry mtok (tokenName "apple/N" "a" "4") eatFeature = 1 ∧ entry mtok (tokenName "apple/N" "b" "4") eatFeature = 1 ∧ entry mtype "apple/N" eatFeature = 2 := by
  have hmac : ∀ m ∈ [verbToken], TokenMacro m := by
    intro m hm; rcases List.mem_singleton.1 hm with rfl; exact verbToken_ok
  have hbase : ∀ c ∈ [sampleFile, ⟨"b", sampleFile.lines⟩], '/' ∉ c.base.toList := by decide
  have hdiff : ([sampleFile, ⟨"b", sampleFile.lines⟩].map CorpusFile.base).Nodup := by decide
  have hj : ∀ c ∈ [sampleFile, ⟨"b", sampleFile.lines⟩], ∃ r, depJob rx0 (fun _ => true) sampleFmt none ["apple/N"] [verbToken] c.lines = .ok r := by
    intro c hc
    have : c.lines = sampleFile.lines := by
      rcases List.mem_cons.1 hc with rfl | hc
      · rfl
      · rcases List.mem_singleton.1 hc with rfl; rfl
    rw [this]
    exact sample_job_ok
  have c0 := two_files (sampleFound false) sampleFile ⟨"b", sampleFile.lines⟩
  have c1 := two_files (sampleFound true) sampleFile ⟨"b", sampleFile.lines⟩
  have hx : (matchMatrix grp0 false (withFound [verbToken] (fun i => sampleFound false sampleFile i ++ sampleFound false ⟨"b", sampleFile.lines⟩ i))).toOption.isSome = true := by
    decide +kernel
  cases h0 : matchMatrix grp0 false (withFound [verbToken] (fun i => sampleFound false sampleFile i ++ sampleFound false ⟨"b", sampleFile.lines⟩ i)) with
  | error e => rw [h0] at hx; cases hx
  | ok mtype =>
    obtain ⟨mtok, h1⟩ := (C212_exists hmac hj c0 c1).2 ⟨mtype, h0⟩
    refine ⟨mtype, mtok, rfl, h1, ?_, ?_, ?_⟩
    · refine (C212_partial (t := "apple/N") (v := "4") (ft := eatFeature) hmac hbase hdiff hj c1 h1 (c := sampleFile) (by simp) (by decide)).trans ?_
      decide +kernel
    · refine (C212_partial (t := "apple/N") (v := "4") (ft := eatFeature) hmac hbase hdiff hj c1 h1 (c := ⟨"b", sampleFile.lines⟩) (by simp) (by decide)).trans ?_
      decide +kernel
    · refine (build_entry (rx := rx0) (istree := fun _ => true) (f := sampleFmt) (tok := false) (targets := ["apple/N"]) (macros := [verbToken]) hj c0 h0
        "apple/N" eatFeature).trans ?_
      decide +kernel

end Verif.Dep
