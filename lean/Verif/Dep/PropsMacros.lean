import Verif.Dep.PropsReaders
import Verif.Dep.PropsTree

/-!
# Reading macros from XML files: C119

The file is rendered from a description (`MacroSpec` and the formats), in the documented form, with any white space between
elements.
-/

namespace Verif.Dep
open Verif.Py Verif.Vocab.Plain
set_option linter.unusedSectionVars false

theorem ok_bind {α β : Type} (x : α) (f : α → Except Err β) : (Except.ok x >>= f) = f x := rfl

/-! ### Elements by tag -/

@[simp] theorem byTagL_nil (t : Str) : byTagL t [] = [] := by rw [byTagL]

@[simp] theorem byTagL_cons (t : Str) (x : Xml) (xs : List Xml) : byTagL t (x :: xs) = Xml.byTag t x ++ byTagL t xs := by
  rw [byTagL]

@[simp] theorem byTagL_append (t : Str) (xs ys : List Xml) : byTagL t (xs ++ ys) = byTagL t xs ++ byTagL t ys := by
  induction xs with
  | nil => simp
  | cons x xs ih => simp [ih]

@[simp] theorem byTag_text (t s : Str) : Xml.byTag t (.text s) = [] := by rw [Xml.byTag]

theorem byTag_self (t : Str) (a : Dict Str Str) (cs : List Xml) :
    Xml.byTag t (.elem t a cs) = .elem t a cs :: byTagL t cs := by
  rw [Xml.byTag, if_pos rfl]

theorem byTag_other {t g : Str} (h : g ≠ t) (a : Dict Str Str) (cs : List Xml) :
    Xml.byTag t (.elem g a cs) = byTagL t cs := by
  rw [Xml.byTag, if_neg h]

/-- Elements with white space before, between and after them. -/
def pad (w : Str) (l : List Xml) : List Xml := l.flatMap (fun x => [.text w, x]) ++ [.text w]

@[simp] theorem byTagL_pad (t w : Str) (l : List Xml) : byTagL t (pad w l) = byTagL t l := by
  unfold pad
  rw [byTagL_append]
  simp only [byTagL_cons, byTag_text, byTagL_nil, List.append_nil]
  induction l with
  | nil => simp
  | cons x l ih =>
    rw [List.flatMap_cons, byTagL_append, ih]
    simp

theorem first_of {t : String} {cs : List Xml} {x : Xml} {r : List Xml} (h : byTagL t.toList cs = x :: r) :
    first t cs = .ok x := by
  unfold first
  rw [h]

/-! ### The specification -/

/-- A macro of the file. -/
structure MacroSpec where
  id : Nat
  pattern : Nat
  target : Nat
  feature : Option Nat
  tdesc : Option Str
  fdesc : Option Str

section
variable (num : Nat → Str) (w : Str)

def attrXml (a : Str × Nat) : Xml := .elem a.1 [("group".toList, num a.2)] []

def stringXml (c : Char) (attrs : List (Str × Nat)) : Xml :=
  .elem "string".toList [("connector".toList, [c])] [.text (Items.join c (attrs.map Prod.fst))]

def nodeFmtXml (c : Char) (attrs : List (Str × Nat)) : Xml :=
  .elem "node-fmt".toList [] (pad w (attrs.map (attrXml num) ++ [stringXml c attrs]))

def descXml : Option Str → List Xml
  | none => []
  | some d => [.elem "description".toList [] [.text d]]

def featureAttrs : Option Nat → Dict Str Str
  | none => []
  | some n => [("featureID".toList, num n)]

def macroXml (s : MacroSpec) : Xml :=
  .elem "target-feature-macro".toList [("id".toList, num s.id)] (pad w
    [.elem "sub-graph-pattern".toList [("id".toList, num s.pattern)] [],
      .elem "target".toList [("nodeID".toList, num s.target)] (pad w (descXml s.tdesc)),
      .elem "feature".toList (featureAttrs num s.feature) (pad w (descXml s.fdesc))])

/-- The whole file: target format with connector `c`, feature format with connector `c'` and the edge attribute. -/
def docXml (c : Char) (ta : List (Str × Nat)) (c' : Char) (na : List (Str × Nat)) (edge : Str) (specs : List MacroSpec) : List Xml :=
  [.elem "target-feature-list".toList [] (pad w
    (.elem "target-fmt".toList [] (pad w [nodeFmtXml num w c ta]) ::
      .elem "feature-fmt".toList [] (pad w [nodeFmtXml num w c' na, .elem "edge-fmt".toList [] [.text edge]]) ::
      specs.map (macroXml num w)))]

end

/-- Attribute names that can be used in a file: not empty as a list, different, without the connector, and not one of the
tags of the file that are looked for. -/
structure GoodNames (c : Char) (attrs : List (Str × Nat)) : Prop where
  nonempty : attrs ≠ []
  nodup : (attrs.map Prod.fst).Nodup
  noSep : ∀ a ∈ attrs, c ∉ a.1
  free : ∀ a ∈ attrs, a.1 ∉ ["string".toList, "feature-fmt".toList, "edge-fmt".toList, "target-feature-macro".toList]

section
variable {num : Nat → Str} {w : Str} {toNat : Str → Option Nat}

theorem byTagL_attrs_other {t : Str} {attrs : List (Str × Nat)} (h : ∀ a ∈ attrs, a.1 ≠ t) :
    byTagL t (attrs.map (attrXml num)) = [] := by
  induction attrs with
  | nil => simp
  | cons a attrs ih =>
    rw [List.map_cons, byTagL_cons, ih (fun x hx => h x (by simp [hx])), attrXml, byTag_other (h a (by simp))]
    simp

theorem byTagL_attrs_self {attrs : List (Str × Nat)} (hn : (attrs.map Prod.fst).Nodup) {a : Str × Nat} (ha : a ∈ attrs) :
    byTagL a.1 (attrs.map (attrXml num)) = [attrXml num a] := by
  induction attrs with
  | nil => cases ha
  | cons b attrs ih =>
    rw [List.map_cons, List.nodup_cons] at hn
    rw [List.map_cons, byTagL_cons]
    rcases List.mem_cons.1 ha with rfl | ha
    · rw [byTagL_attrs_other (fun x hx h => hn.1 (by rw [← h]; exact List.mem_map_of_mem hx)), attrXml, byTag_self]
      simp
    · have hne : b.1 ≠ a.1 := fun h => hn.1 (by rw [h]; exact List.mem_map_of_mem ha)
      rw [ih hn.2 ha, attrXml, byTag_other hne]
      simp

theorem readNat_num (hnum : ∀ n, toNat (num n) = some n) (n : Nat) : readNat toNat (num n) = .ok n := by
  unfold readNat
  rw [hnum]

theorem nodeFmtXml_tag {t : Str} {c : Char} {attrs : List (Str × Nat)} (h1 : "node-fmt".toList ≠ t) (h2 : "string".toList ≠ t)
    (h3 : ∀ a ∈ attrs, a.1 ≠ t) : Xml.byTag t (nodeFmtXml num w c attrs) = [] := by
  rw [nodeFmtXml, byTag_other h1, byTagL_pad, byTagL_append, byTagL_attrs_other h3, byTagL_cons, stringXml, byTag_other h2]
  simp

theorem nodeFmt_spec (hnum : ∀ n, toNat (num n) = some n) {c : Char} {attrs : List (Str × Nat)} (hg : GoodNames c attrs)
    (tag : Str) (extra : List Xml) :
    nodeFmt toNat (.elem tag [] (pad w (nodeFmtXml num w c attrs :: extra))) =
      .ok (attrs.map (fun a => (String.ofList a.1, a.2))) := by
  have h1 : first "node-fmt" (Xml.elem tag [] (pad w (nodeFmtXml num w c attrs :: extra))).children =
      .ok (nodeFmtXml num w c attrs) := by
    apply first_of (r := byTagL "node-fmt".toList (pad w (attrs.map (attrXml num) ++ [stringXml c attrs])) ++ byTagL "node-fmt".toList extra)
    show byTagL _ (pad w (nodeFmtXml num w c attrs :: extra)) = _
    rw [byTagL_pad, byTagL_cons]
    conv_lhs => rw [nodeFmtXml]
    rw [byTag_self]
    rfl
  have hattr : ∀ a ∈ attrs, a.1 ≠ "string".toList := fun a ha h => hg.free a ha (by rw [h]; simp)
  have h2 : first "string" (nodeFmtXml num w c attrs).children = .ok (stringXml c attrs) := by
    apply first_of (r := [])
    show byTagL _ (pad w (attrs.map (attrXml num) ++ [stringXml c attrs])) = _
    rw [byTagL_pad, byTagL_append, byTagL_attrs_other hattr, List.nil_append, byTagL_cons]
    conv_lhs => rw [stringXml]
    rw [byTag_self]
    simp [stringXml]
  have h3 : attrOf "connector" (stringXml c attrs) = .ok [c] := rfl
  have h4 : dataOf (stringXml c attrs) = .ok (Items.join c (attrs.map Prod.fst)) := rfl
  have h5 : splitSep [c] (Items.join c (attrs.map Prod.fst)) = .ok (attrs.map Prod.fst) := by
    show Except.ok (Items.split c (Items.join c (attrs.map Prod.fst))) = _
    rw [Items.split_join c (attrs.map Prod.fst) (by simp [hg.nonempty])]
    intro s hs
    obtain ⟨a, ha, rfl⟩ := List.mem_map.1 hs
    exact hg.noSep a ha
  have h6 : (attrs.map Prod.fst).mapM (groupOf toNat (nodeFmtXml num w c attrs).children) =
      .ok (attrs.map (fun a => (String.ofList a.1, a.2))) := by
    rw [List.mapM_map]
    apply mapM_ok
    intro a ha
    have hf : first (String.ofList a.1) (nodeFmtXml num w c attrs).children = .ok (attrXml num a) := by
      apply first_of (r := byTagL a.1 [stringXml c attrs])
      rw [String.toList_ofList]
      show byTagL _ (pad w (attrs.map (attrXml num) ++ [stringXml c attrs])) = _
      rw [byTagL_pad, byTagL_append, byTagL_attrs_self hg.nodup ha]
      rfl
    have hgr : attrOf "group" (attrXml num a) = .ok (num a.2) := rfl
    show groupOf toNat _ a.1 = _
    simp only [groupOf, hf, ok_bind, hgr, readNat_num hnum]
  simp only [nodeFmt, h1, ok_bind, h2, h3, h4, h5, h6]
  rw [ofPairs_nodup]
  rw [List.map_map]
  have : (attrs.map (Prod.fst ∘ fun a => (String.ofList a.1, a.2))) = (attrs.map Prod.fst).map String.ofList := by
    rw [List.map_map]; rfl
  rw [this]
  exact hg.nodup.map (fun a b h => by
    have := congrArg String.toList h
    rwa [String.toList_ofList, String.toList_ofList] at this)

theorem descOf_spec (t : Str) (a : Dict Str Str) (d : Option Str) :
    descOf (.elem t a (pad w (descXml d))) = .ok (d.getD "no description".toList) := by
  unfold descOf
  show (match byTagL _ (pad w (descXml d)) with
    | [] => _
    | d :: _ => dataOf d) = _
  rw [byTagL_pad]
  cases d with
  | none => rfl
  | some d =>
    rw [descXml, byTagL_cons, byTag_self]
    rfl

/-- **C119**, descriptions: an empty description element makes the macro unreadable (`IndexError`), and so does one that
begins with markup (`AttributeError`); otherwise it is the text before the first markup. -/
theorem C119_description (t : Str) (a : Dict Str Str) (b : Dict Str Str) :
    descOf (.elem t a (pad w [.elem "description".toList b []])) = .error .indexError ∧
    (∀ s cs, descOf (.elem t a (pad w [.elem "description".toList b (.text s :: cs)])) = .ok s) ∧
    ∀ g b' cs' cs, descOf (.elem t a (pad w [.elem "description".toList b (.elem g b' cs' :: cs)])) = .error .attributeError := by
  have key : ∀ cs, descOf (.elem t a (pad w [.elem "description".toList b cs])) = dataOf (.elem "description".toList b cs) := by
    intro cs
    have hb : byTagL "description".toList (Xml.elem t a (pad w [.elem "description".toList b cs])).children =
        .elem "description".toList b cs :: byTagL "description".toList cs := by
      show byTagL _ (pad w [.elem "description".toList b cs]) = _
      rw [byTagL_pad, byTagL_cons, byTag_self]
      simp
    unfold descOf
    rw [hb]
  exact ⟨key [], fun s cs => key _, fun g b' cs' cs => key _⟩

theorem byTagL_desc {t : Str} (h : "description".toList ≠ t) (d : Option Str) : byTagL t (descXml d) = [] := by
  cases d with
  | none => simp [descXml]
  | some d =>
    rw [descXml, byTagL_cons, byTag_other h]
    simp

/-- What `parse_macro_xml` reads from the element of a macro. -/
theorem parseMacro_spec (hnum : ∀ n, toNat (num n) = some n) (id2patt : Dict Nat Pattern) (s : MacroSpec) {p : Pattern}
    {m : Macro} (hp : Dict.get? id2patt s.pattern = some p) (hm : newMacro p s.target s.feature = .ok m) :
    parseMacro toNat id2patt (macroXml num w s) =
      .ok ⟨s.id, m, s.tdesc.getD "no description".toList, s.fdesc.getD "no description".toList⟩ := by
  have hch : (macroXml num w s).children = pad w
    [.elem "sub-graph-pattern".toList [("id".toList, num s.pattern)] [],
      .elem "target".toList [("nodeID".toList, num s.target)] (pad w (descXml s.tdesc)),
      .elem "feature".toList (featureAttrs num s.feature) (pad w (descXml s.fdesc))] := rfl
  have h1 : attrOf "id" (macroXml num w s) = .ok (num s.id) := rfl
  have h2 : first "sub-graph-pattern" (macroXml num w s).children =
      .ok (.elem "sub-graph-pattern".toList [("id".toList, num s.pattern)] []) := by
    rw [hch]
    apply first_of (r := [])
    rw [byTagL_pad, byTagL_cons, byTagL_cons, byTagL_cons, byTag_self, byTag_other (by decide), byTag_other (by decide), byTagL_pad,
      byTagL_pad, byTagL_desc (by decide), byTagL_desc (by decide)]
    simp
  have h3 : first "target" (macroXml num w s).children =
      .ok (.elem "target".toList [("nodeID".toList, num s.target)] (pad w (descXml s.tdesc))) := by
    rw [hch]
    apply first_of (r := [])
    rw [byTagL_pad, byTagL_cons, byTagL_cons, byTagL_cons, byTag_other (by decide), byTag_self, byTag_other (by decide), byTagL_pad,
      byTagL_pad, byTagL_desc (by decide), byTagL_desc (by decide)]
    simp
  have h4 : first "feature" (macroXml num w s).children =
      .ok (.elem "feature".toList (featureAttrs num s.feature) (pad w (descXml s.fdesc))) := by
    rw [hch]
    apply first_of (r := [])
    rw [byTagL_pad, byTagL_cons, byTagL_cons, byTagL_cons, byTag_other (by decide), byTag_other (by decide), byTag_self, byTagL_pad,
      byTagL_pad, byTagL_desc (by decide), byTagL_desc (by decide)]
    simp
  have h5 : featureIdxOf toNat (.elem "feature".toList (featureAttrs num s.feature) (pad w (descXml s.fdesc))) = s.feature := by
    cases hf : s.feature with
    | none => rfl
    | some n =>
      unfold featureIdxOf
      exact hnum n
  have h6 : getD id2patt s.pattern = .ok p := by unfold getD; rw [hp]
  have h7 : attrOf "id" (.elem "sub-graph-pattern".toList [("id".toList, num s.pattern)] []) = .ok (num s.pattern) := rfl
  have h8 : attrOf "nodeID" (.elem "target".toList [("nodeID".toList, num s.target)] (pad w (descXml s.tdesc))) = .ok (num s.target) := rfl
  simp only [parseMacro, h1, ok_bind, readNat_num hnum, h2, h7, h3, h8, descOf_spec, h4, h6, h5, hm]

theorem newMacro_spec {p : Pattern} {r : Nat} (T : RootedTree p.graph r) {l : Bool} (hl : isLinear p.graph = .ok l)
    (t : Nat) (f : Option Nat) :
    ∃ d, newMacro p t f = .ok ⟨p.graph, t, f, [], [], [], some [], "/", d, []⟩ ∧
      (∃ v, (∀ x, ¬ HasEdge p.graph v x) ∧ PathN p.graph r v d) ∧ ∀ v n, PathN p.graph r v n → n ≤ d := by
  obtain ⟨d, h1, h2, h3⟩ := C41_depth T
  refine ⟨d, ?_, h2, h3⟩
  have hne : p.graph.nodes ≠ [] := by
    intro h
    have := T.root
    rw [h] at this
    cases this
  unfold newMacro patternOf
  rw [if_neg hne]
  unfold finishPattern
  rw [hl]
  show (getDepth p.graph >>= _) = _
  rw [h1]
  rfl

/-- **C119 (partial).** A file in the documented form gives one macro per element, in order, with the number, the pattern,
the target node, the feature node (none: the full pattern is the feature), the descriptions and the attributes with their
groups that the file states, and no matches yet.  `num`: how numbers are written. -/
theorem C119_partial (hnum : ∀ n, toNat (num n) = some n) {c c' : Char} {ta na : List (Str × Nat)} (hta : GoodNames c ta)
    (hna : GoodNames c' na) (edge : Str) (specs : List MacroSpec) (patterns : List Pattern) (ids : List Nat)
    (hids : patterns.map Pattern.id = ids.map some) (hn : ids.Nodup)
    (hp : ∀ s ∈ specs, ∃ p ∈ patterns, p.id = some s.pattern ∧ (∃ r, RootedTree p.graph r) ∧ ∃ l, isLinear p.graph = .ok l) :
    ∃ ms, readXml toNat (docXml num w c ta c' na edge specs) patterns = .ok ms ∧
      List.Forall₂ (fun s m => m.id = s.id ∧ (∃ p ∈ patterns, p.id = some s.pattern ∧ m.mac.graph = p.graph) ∧
        m.mac.targetIdx = s.target ∧ m.mac.featureIdx = s.feature ∧
        m.targetDesc = s.tdesc.getD "no description".toList ∧ m.featDesc = s.fdesc.getD "no description".toList ∧
        m.mac.targetAttrs = ta.map (fun a => (String.ofList a.1, a.2)) ∧
        m.mac.featNodeAttrs = na.map (fun a => (String.ofList a.1, a.2)) ∧
        m.mac.featEdgeAttrs = [(String.ofList edge, 1)] ∧ m.mac.found = []) specs ms := by
  have hps : patterns.mapM withId = .ok (ids.zip patterns) := by
    clear hp hn
    induction patterns generalizing ids with
    | nil =>
      cases ids with
      | nil => rfl
      | cons i ids => exact nomatch hids
    | cons p patterns ih =>
      cases ids with
      | nil => exact nomatch hids
      | cons i ids =>
        rw [List.map_cons, List.map_cons] at hids
        injection hids with h1 h2
        rw [List.mapM_cons]
        have : withId p = .ok (i, p) := by unfold withId; rw [h1]
        rw [this]
        show (patterns.mapM withId >>= _) = _
        rw [ih ids h2]
        rfl
  have hlen : ids.length = patterns.length := by
    have := congrArg List.length hids
    simpa using this.symm
  have hfst : (ids.zip patterns).map Prod.fst = ids := List.map_fst_zip (by omega)
  have hof : Dict.ofPairs (ids.zip patterns) = ids.zip patterns := ofPairs_nodup _ (by rw [hfst]; exact hn)
  have hget : ∀ p ∈ patterns, ∀ i, p.id = some i → Dict.get? (Dict.ofPairs (ids.zip patterns)) i = some p := by
    intro p hp1 i hi
    rw [hof]
    apply Dict.get?_of_mem
    · show ((ids.zip patterns).map Prod.fst).Nodup
      rw [hfst]; exact hn
    · obtain ⟨k, hk, rfl⟩ := List.getElem_of_mem hp1
      have h1 := congrArg (fun l => l[k]?) hids
      simp only [List.getElem?_map, List.getElem?_eq_getElem hk, Option.map_some, hi] at h1
      have hk' : k < ids.length := by omega
      rw [List.getElem?_eq_getElem hk'] at h1
      simp only [Option.map_some, Option.some.injEq] at h1
      have hz : k < (ids.zip patterns).length := by rw [List.length_zip]; omega
      have : (ids.zip patterns)[k] = (i, patterns[k]) := by rw [List.getElem_zip, ← h1]
      rw [← this]
      exact List.getElem_mem hz
  -- the formats
  have fmt : ∀ t : Str, ∀ c attrs, GoodNames c attrs → t ∈ ["feature-fmt".toList, "edge-fmt".toList, "target-feature-macro".toList] →
      Xml.byTag t (nodeFmtXml num w c attrs) = [] := by
    intro t c attrs hg ht
    have hfree : ∀ a ∈ attrs, a.1 ≠ t := fun a ha h => hg.free a ha (by rw [h]; exact List.mem_cons_of_mem _ ht)
    refine nodeFmtXml_tag ?_ ?_ hfree
    · intro h; subst h; revert ht; decide
    · intro h; subst h; revert ht; decide
  have h1 : first "target-fmt" (docXml num w c ta c' na edge specs) = .ok (.elem "target-fmt".toList [] (pad w [nodeFmtXml num w c ta])) := by
    unfold docXml first
    rw [byTagL_cons, byTag_other (by decide), byTagL_pad, byTagL_cons, byTag_self]
    rfl
  have h2 : first "feature-fmt" (docXml num w c ta c' na edge specs) =
      .ok (.elem "feature-fmt".toList [] (pad w [nodeFmtXml num w c' na, .elem "edge-fmt".toList [] [.text edge]])) := by
    unfold docXml first
    rw [byTagL_cons, byTag_other (by decide), byTagL_pad, byTagL_cons, byTag_other (by decide), byTagL_pad, byTagL_cons,
      fmt _ c ta hta (by simp), byTagL_nil, byTagL_cons, byTag_self]
    rfl
  have h3 : first "edge-fmt" (Xml.elem "feature-fmt".toList [] (pad w [nodeFmtXml num w c' na, .elem "edge-fmt".toList [] [.text edge]])).children =
      .ok (.elem "edge-fmt".toList [] [.text edge]) := by
    apply first_of (r := [])
    show byTagL _ (pad w _) = _
    rw [byTagL_pad, byTagL_cons, fmt _ c' na hna (by simp), byTagL_cons, byTag_self]
    simp
  have h4 : byTagL "target-feature-macro".toList (docXml num w c ta c' na edge specs) = specs.map (macroXml num w) := by
    unfold docXml
    rw [byTagL_cons, byTag_other (by decide), byTagL_pad, byTagL_cons, byTag_other (by decide), byTagL_pad, byTagL_cons,
      fmt _ c ta hta (by simp), byTagL_nil, byTagL_cons, byTag_other (by decide), byTagL_pad, byTagL_cons,
      fmt _ c' na hna (by simp), byTagL_cons, byTag_other (by decide)]
    simp only [byTagL_cons, byTag_text, byTagL_nil, List.append_nil, List.nil_append]
    clear hp h1 h2
    induction specs with
    | nil => simp
    | cons s specs ih =>
      have hs : Xml.byTag "target-feature-macro".toList (macroXml num w s) = [macroXml num w s] := by
        conv_lhs => rw [macroXml]
        rw [byTag_self, byTagL_pad, byTagL_cons, byTagL_cons, byTagL_cons, byTag_other (by decide), byTag_other (by decide),
          byTag_other (by decide), byTagL_pad, byTagL_pad, byTagL_desc (by decide), byTagL_desc (by decide)]
        simp [macroXml]
      rw [List.map_cons, byTagL_cons, hs, ih]
      rfl
  have hred : readXml toNat (docXml num w c ta c' na edge specs) patterns =
      (specs.map (macroXml num w)).mapM (fun x => do
        let m ← parseMacro toNat (Dict.ofPairs (ids.zip patterns)) x
        .ok (formatted (ta.map (fun a => (String.ofList a.1, a.2))) (na.map (fun a => (String.ofList a.1, a.2))) edge m)) := by
    have h5 : dataOf (.elem "edge-fmt".toList [] [.text edge]) = .ok edge := rfl
    simp only [readXml, hps, ok_bind, h1, nodeFmt_spec hnum hta, h2, nodeFmt_spec hnum hna, h3, h5, h4]
  rw [hred]
  clear hred h4 h1 h2 h3
  induction specs with
  | nil => exact ⟨[], rfl, .nil⟩
  | cons s specs ih =>
    obtain ⟨ms, hms, hf⟩ := ih (fun x hx => hp x (by simp [hx]))
    obtain ⟨p, hp1, hp2, ⟨r, T⟩, l, hl⟩ := hp s (by simp)
    obtain ⟨d, hd, -, -⟩ := newMacro_spec T hl s.target s.feature
    have hpm := parseMacro_spec (w := w) hnum (Dict.ofPairs (ids.zip patterns)) s (hget p hp1 _ hp2) hd
    refine ⟨formatted (ta.map (fun a => (String.ofList a.1, a.2))) (na.map (fun a => (String.ofList a.1, a.2))) edge
      ⟨s.id, ⟨p.graph, s.target, s.feature, [], [], [], some [], "/", d, []⟩, s.tdesc.getD "no description".toList, s.fdesc.getD "no description".toList⟩ :: ms, ?_, .cons ?_ hf⟩
    · simp only [List.map_cons, List.mapM_cons, hpm, ok_bind, hms]
      rfl
    · exact ⟨rfl, ⟨p, hp1, hp2, rfl⟩, rfl, rfl, rfl, rfl, rfl, rfl, rfl, rfl⟩

theorem bind_ok {α β : Type} {x : Except Err α} {f : α → Except Err β} {y : β} (h : (x >>= f) = .ok y) :
    ∃ a, x = .ok a ∧ f a = .ok y := by
  cases x with
  | error e => exact nomatch h
  | ok a => exact ⟨a, rfl, h⟩

theorem mapM_mem {α β : Type} {f : α → Except Err β} : ∀ {l : List α} {ys : List β}, l.mapM f = .ok ys → ∀ y ∈ ys, ∃ x ∈ l, f x = .ok y
  | [], ys, h, y, hy => by rw [List.mapM_nil] at h; injection h with h; rw [← h] at hy; cases hy
  | a :: l, ys, h, y, hy => by
    rw [List.mapM_cons] at h
    obtain ⟨b, hb, h⟩ := bind_ok h
    obtain ⟨bs, hbs, h⟩ := bind_ok h
    injection h with h
    rw [← h] at hy
    rcases List.mem_cons.1 hy with rfl | hy
    · exact ⟨a, by simp, hb⟩
    · obtain ⟨x, hx, hfx⟩ := mapM_mem hbs y hy
      exact ⟨x, by simp [hx], hfx⟩

theorem newMacro_fields {p : Pattern} {t : Nat} {f : Option Nat} {m : Macro} (h : newMacro p t f = .ok m) :
    m.connector = "/" ∧ m.filter = some [] ∧ m.found = [] ∧ m.targetIdx = t ∧ m.featureIdx = f ∧ m.graph = p.graph := by
  unfold newMacro at h
  obtain ⟨q, hq, h⟩ := bind_ok h
  obtain ⟨d, hd, h⟩ := bind_ok h
  injection h with h
  rw [← h]
  exact ⟨rfl, rfl, rfl, rfl, rfl, patternOf_graph hq⟩

/-- Every macro read from a file comes from an element, a pattern of that number, the target and the feature node. -/
theorem readXml_mem {doc : List Xml} {patterns : List Pattern} {ms : List ReadMacro} (h : readXml toNat doc patterns = .ok ms)
    {m : ReadMacro} (hm : m ∈ ms) :
    ∃ x ∈ byTagL "target-feature-macro".toList doc, ∃ feature p t, first "feature" x.children = .ok feature ∧
      newMacro p t (featureIdxOf toNat feature) = .ok { m.mac with targetAttrs := [], featNodeAttrs := [], featEdgeAttrs := [] } := by
  unfold readXml at h
  obtain ⟨ps, -, h⟩ := bind_ok h
  obtain ⟨tf, -, h⟩ := bind_ok h
  obtain ⟨ta, -, h⟩ := bind_ok h
  obtain ⟨ff, -, h⟩ := bind_ok h
  obtain ⟨na, -, h⟩ := bind_ok h
  obtain ⟨ef, -, h⟩ := bind_ok h
  obtain ⟨edge, -, h⟩ := bind_ok h
  obtain ⟨x, hx, h⟩ := mapM_mem h m hm
  obtain ⟨m', hm', h⟩ := bind_ok h
  injection h with h
  unfold parseMacro at hm'
  obtain ⟨_, -, hm'⟩ := bind_ok hm'
  obtain ⟨_, -, hm'⟩ := bind_ok hm'
  obtain ⟨_, -, hm'⟩ := bind_ok hm'
  obtain ⟨_, -, hm'⟩ := bind_ok hm'
  obtain ⟨_, -, hm'⟩ := bind_ok hm'
  obtain ⟨_, -, hm'⟩ := bind_ok hm'
  obtain ⟨_, -, hm'⟩ := bind_ok hm'
  obtain ⟨t, -, hm'⟩ := bind_ok hm'
  obtain ⟨_, -, hm'⟩ := bind_ok hm'
  obtain ⟨feature, hf, hm'⟩ := bind_ok hm'
  obtain ⟨_, -, hm'⟩ := bind_ok hm'
  obtain ⟨p, -, hm'⟩ := bind_ok hm'
  obtain ⟨n, hn, hm'⟩ := bind_ok hm'
  injection hm' with hm'
  refine ⟨x, hx, feature, p, t, hf, ?_⟩
  rw [hn]
  unfold newMacro at hn
  obtain ⟨q, -, hn⟩ := bind_ok hn
  obtain ⟨d, -, hn⟩ := bind_ok hn
  injection hn with hn
  rw [← h, ← hm', ← hn]
  rfl

/-- **C119 is false for the connector**: whatever the file says, strings of targets and features are joined by `/`. -/
theorem C119_connector_false {doc : List Xml} {patterns : List Pattern} {ms : List ReadMacro}
    (h : readXml toNat doc patterns = .ok ms) : ∀ m ∈ ms, m.mac.connector = "/" := by
  intro m hm
  obtain ⟨x, -, feature, p, t, -, hn⟩ := readXml_mem h hm
  exact (newMacro_fields hn).1

/-- **C119 is false for features given otherwise**: if no `feature` element has an attribute `featureID` that is a number -
also if they have `nodeID`, as in the documentation of the reader - every macro has the full pattern as its feature. -/
theorem C119_feature_false {doc : List Xml} {patterns : List Pattern} {ms : List ReadMacro}
    (h : readXml toNat doc patterns = .ok ms)
    (hf : ∀ x ∈ byTagL "target-feature-macro".toList doc, ∀ y, first "feature" x.children = .ok y → ∀ v,
      attrOf "featureID" y = .ok v → toNat v = none) :
    ∀ m ∈ ms, m.mac.featureIdx = none := by
  intro m hm
  obtain ⟨x, hx, feature, p, t, hfe, hn⟩ := readXml_mem h hm
  have h1 := (newMacro_fields hn).2.2.2.2.1
  have h2 : featureIdxOf toNat feature = none := by
    unfold featureIdxOf
    cases ha : attrOf "featureID" feature with
    | error e => rfl
    | ok v => exact hf x hx feature hfe v ha
  rw [h2] at h1
  exact h1

/-- **Macros as read match nothing**: before a target filter is set (the handler does so) no sentence adds a match. -/
theorem C119_no_match (rx : String → String → Bool) {doc : List Xml} {patterns : List Pattern} {ms : List ReadMacro}
    (h : readXml toNat doc patterns = .ok ms) {m : ReadMacro} (hm : m ∈ ms) (istree : Bool) (s : Graph) (fid : Option String)
    {m' : Macro} (ht : treeMatch rx istree s fid m.mac = .ok m') : m'.found = [] := by
  obtain ⟨x, -, feature, p, t, -, hn⟩ := readXml_mem h hm
  obtain ⟨-, hfil, hfound, -⟩ := newMacro_fields hn
  have hfil' : m.mac.filter = some [] := hfil
  have hfound' : m.mac.found = [] := hfound
  unfold treeMatch at ht
  split at ht
  · obtain ⟨maps, -, ht⟩ := bind_ok ht
    obtain ⟨rs, hrs, ht⟩ := bind_ok ht
    injection ht with ht
    rw [← ht]
    show m.mac.found ++ rs.filterMap id = []
    rw [hfound', List.nil_append, List.filterMap_eq_nil_iff]
    intro r hr
    obtain ⟨nm, -, hnm⟩ := mapM_mem hrs r hr
    unfold addOne at hnm
    obtain ⟨nodes, -, hnm⟩ := bind_ok hnm
    obtain ⟨b, hb, hnm⟩ := bind_ok hnm
    have hbf : b = false := by
      unfold passes at hb
      rw [hfil'] at hb
      simp only at hb
      obtain ⟨k, -, hb⟩ := bind_ok hb
      injection hb with hb
      rw [← hb]
      simp
    subst hbf
    simp only [Bool.false_eq_true, if_false] at hnm
    injection hnm with hnm
    rw [← hnm]
    rfl
  · injection ht with ht
    rw [← ht]
    exact hfound'

/-- **A macro for an unknown pattern** makes the whole file unreadable: `KeyError`. -/
theorem C119_unknown_pattern (hnum : ∀ n, toNat (num n) = some n) (id2patt : Dict Nat Pattern) (s : MacroSpec)
    (hp : Dict.get? id2patt s.pattern = none) : parseMacro toNat id2patt (macroXml num w s) = .error .keyError := by
  have hch : (macroXml num w s).children = pad w
    [.elem "sub-graph-pattern".toList [("id".toList, num s.pattern)] [],
      .elem "target".toList [("nodeID".toList, num s.target)] (pad w (descXml s.tdesc)),
      .elem "feature".toList (featureAttrs num s.feature) (pad w (descXml s.fdesc))] := rfl
  have h1 : attrOf "id" (macroXml num w s) = .ok (num s.id) := rfl
  have h2 : first "sub-graph-pattern" (macroXml num w s).children =
      .ok (.elem "sub-graph-pattern".toList [("id".toList, num s.pattern)] []) := by
    rw [hch]
    apply first_of (r := [])
    rw [byTagL_pad, byTagL_cons, byTagL_cons, byTagL_cons, byTag_self, byTag_other (by decide), byTag_other (by decide), byTagL_pad,
      byTagL_pad, byTagL_desc (by decide), byTagL_desc (by decide)]
    simp
  have h3 : first "target" (macroXml num w s).children =
      .ok (.elem "target".toList [("nodeID".toList, num s.target)] (pad w (descXml s.tdesc))) := by
    rw [hch]
    apply first_of (r := [])
    rw [byTagL_pad, byTagL_cons, byTagL_cons, byTagL_cons, byTag_other (by decide), byTag_self, byTag_other (by decide), byTagL_pad,
      byTagL_pad, byTagL_desc (by decide), byTagL_desc (by decide)]
    simp
  have h4 : first "feature" (macroXml num w s).children =
      .ok (.elem "feature".toList (featureAttrs num s.feature) (pad w (descXml s.fdesc))) := by
    rw [hch]
    apply first_of (r := [])
    rw [byTagL_pad, byTagL_cons, byTagL_cons, byTagL_cons, byTag_other (by decide), byTag_other (by decide), byTag_self, byTagL_pad,
      byTagL_pad, byTagL_desc (by decide), byTagL_desc (by decide)]
    simp
  have h6 : getD id2patt s.pattern = .error .keyError := by unfold getD; rw [hp]
  have h7 : attrOf "id" (.elem "sub-graph-pattern".toList [("id".toList, num s.pattern)] []) = .ok (num s.pattern) := rfl
  have h8 : attrOf "nodeID" (.elem "target".toList [("nodeID".toList, num s.target)] (pad w (descXml s.tdesc))) = .ok (num s.target) := rfl
  simp only [parseMacro, h1, ok_bind, readNat_num hnum, h2, h7, h3, h8, descOf_spec, h4, h6]
  rfl

end

/-! ### Concrete cases -/

/-- Numbers in unary notation. -/
def unary (n : Nat) : Str := List.replicate n '1'

def unUnary (s : Str) : Option Nat := if s.all (· = '1') then some s.length else none

example : ∀ n, unUnary (unary n) = some n := by
  intro n
  unfold unUnary unary
  rw [if_pos]
  · simp
  · simp

/-- A pattern with an edge from 1 to 2. -/
def edgePattern : Pattern := ⟨⟨[(1, [("lemma", "(.+)")]), (2, [("lemma", "(.+)")])], [((1, 2), [("deprel", "obj")])]⟩, some 7, none, false⟩

def sampleSpecs : List MacroSpec := [⟨1, 7, 1, some 2, some "verb".toList, none⟩, ⟨2, 7, 2, none, none, none⟩]

def sampleDoc : List Xml := docXml unary " ".toList '_' [("lemma".toList, 1), ("lid".toList, 1)] '/' [("lemma".toList, 1)] "deprel".toList sampleSpecs

example : GoodNames '_' [("lemma".toList, 1), ("lid".toList, 1)] ∧ isLinear edgePattern.graph = .ok true := by
  refine ⟨⟨by decide, by decide, by decide, by decide⟩, by decide⟩

/-- C119: the sample gives two macros. -/
example :
    ((readXml unUnary sampleDoc [edgePattern]).map (fun ms => ms.map (fun m => (m.id, m.mac.targetIdx, m.mac.depth)))).toOption =
      some [(1, 1, 2), (2, 2, 2)] ∧
    ((readXml unUnary sampleDoc [edgePattern]).map (fun ms => ms.map (fun m => (m.mac.featureIdx, m.mac.connector)))).toOption =
      some [(some 2, "/"), (none, "/")] ∧
    ((readXml unUnary sampleDoc [edgePattern]).map (fun ms => ms.map (fun m => m.mac.targetAttrs.keys))).toOption =
      some [["lemma", "lid"], ["lemma", "lid"]] ∧
    ((readXml unUnary sampleDoc [edgePattern]).map (fun ms => ms.map (fun m => String.ofList m.targetDesc))).toOption =
      some ["verb", "no description"] := by
  decide +kernel

/-- A macro of an unknown pattern, an empty description, and `nodeID` for the feature. -/
example :
    (match readXml unUnary sampleDoc [{ edgePattern with id := some 8 }] with | .error e => some e | .ok _ => none) = some .keyError ∧
    (match descOf (.elem "target".toList [] [.elem "description".toList [] []]) with | .error e => some e | .ok _ => none) = some .indexError ∧
    featureIdxOf unUnary (.elem "feature".toList [("nodeID".toList, unary 2)] []) = none := by
  decide +kernel

/-! ## Connectors of several characters -/

theorem splitLong_spec (sep : Str) (hs : sep ≠ []) : ∀ (n : Nat) (acc s : Str), s.length < n →
    (∀ a b, acc.reverse = a ++ b → b ≠ [] → ¬ sep <+: b ++ s) →
    List.intercalate sep (splitLong sep n acc s) = acc.reverse ++ s ∧ splitLong sep n acc s ≠ [] ∧
      ∀ p ∈ splitLong sep n acc s, ¬ sep <:+: p := by
  have last : ∀ acc s : Str, (∀ a b, acc.reverse = a ++ b → b ≠ [] → ¬ sep <+: b ++ s) → ¬ sep <:+: acc.reverse := by
    rintro acc s h ⟨a, c, e⟩
    refine h a (sep ++ c) (by rw [← e, List.append_assoc]) (by simp [hs]) ⟨c ++ s, ?_⟩
    simp
  intro n
  induction n with
  | zero => intro acc s h; omega
  | succ n ih =>
    intro acc s hl hinv
    cases s with
    | nil =>
      refine ⟨by simp [splitLong], by simp [splitLong], ?_⟩
      intro p hp
      rw [splitLong, List.mem_singleton] at hp
      rw [hp]
      exact last acc [] hinv
    | cons c s =>
      rw [splitLong]
      split
      · rename_i hp
        rw [List.isPrefixOf_iff_prefix] at hp
        obtain ⟨t, ht⟩ := hp
        have hd : (c :: s).drop sep.length = t := by rw [← ht]; simp
        have hlen : t.length < n := by
          have := congrArg List.length ht
          have h1 : sep.length ≠ 0 := by simpa using hs
          simp only [List.length_append, List.length_cons] at this hl
          omega
        obtain ⟨i1, i2, i3⟩ := ih [] t hlen (by
          intro a b e hb
          simp at e
          exact absurd e.2 hb)
        rw [hd]
        refine ⟨?_, by simp, ?_⟩
        · rw [← ht]
          cases hr : splitLong sep n [] t with
          | nil => exact absurd hr i2
          | cons q qs =>
            rw [hr] at i1
            rw [List.intercalate_cons_cons, i1]
            simp
        · intro p hp
          rcases List.mem_cons.1 hp with rfl | hp
          · exact last acc (c :: s) hinv
          · exact i3 p hp
      · rename_i hp
        rw [List.isPrefixOf_iff_prefix] at hp
        obtain ⟨i1, i2, i3⟩ := ih (c :: acc) s (by simp only [List.length_cons] at hl; omega) (by
          intro a b e hb
          rw [List.reverse_cons] at e
          rcases List.eq_nil_or_concat b with rfl | ⟨b', x, rfl⟩
          · exact absurd rfl hb
          · rw [List.concat_eq_append, ← List.append_assoc] at e
            obtain ⟨e1, e2⟩ := List.append_inj' e rfl
            obtain rfl : c = x := by simpa using e2
            rw [List.concat_eq_append, List.append_assoc]
            by_cases hb' : b' = []
            · subst hb'; exact hp
            · exact hinv a b' e1 hb')
        refine ⟨?_, i2, i3⟩
        rw [i1]; simp

/-- **C119**, connectors: a format is cut at its connector, however long that is: the pieces with the connector between them are the text,
and no piece contains the connector; the empty connector is a `ValueError`. -/
theorem C119_connector (sep s : Str) : (sep = [] → splitSep sep s = .error .valueError) ∧
    (2 ≤ sep.length → ∃ ps, splitSep sep s = .ok ps ∧ ps ≠ [] ∧ List.intercalate sep ps = s ∧ ∀ p ∈ ps, ¬ sep <:+: p) := by
  constructor
  · rintro rfl; rfl
  · intro h
    obtain ⟨h1, h2, h3⟩ := splitLong_spec sep (by rintro rfl; simp at h) (s.length + 1) [] s (by omega) (by
      intro a b e hb
      simp at e
      exact absurd e.2 hb)
    refine ⟨_, ?_, h2, h1, h3⟩
    match sep, h with
    | a :: b :: t, _ => rfl

example : splitSep ['-', '-'] ['a', '-', '-', 'b'] = .ok [['a'], ['b']] := by decide

/-- **C119** (files that lack something).  A file without a format of targets, and a macro without a pattern, a target or a feature,
are refused with an `IndexError`. -/
theorem C119_missing (toNat : Str → Option Nat) (doc : List Xml) (patterns : List Pattern) (hp : ∀ p ∈ patterns, p.id ≠ none)
    (id2patt : Dict Nat Pattern) (x : Xml) {v : Str} (hv : attrOf "id" x = .ok v) {i : Nat} (hi : toNat v = some i) :
    (byTagL "target-fmt".toList doc = [] → readXml toNat doc patterns = .error .indexError) ∧
    (byTagL "sub-graph-pattern".toList x.children = [] → parseMacro toNat id2patt x = .error .indexError) ∧
    ∀ (patt : Xml) (ps : List Xml) (w : Str) (j : Nat), byTagL "sub-graph-pattern".toList x.children = patt :: ps →
      attrOf "id" patt = .ok w → toNat w = some j →
      (byTagL "target".toList x.children = [] → parseMacro toNat id2patt x = .error .indexError) ∧
      ∀ (tg : Xml) (ts : List Xml) (n : Str) (k : Nat) (d : Str), byTagL "target".toList x.children = tg :: ts →
        attrOf "nodeID" tg = .ok n → toNat n = some k → descOf tg = .ok d →
        byTagL "feature".toList x.children = [] → parseMacro toNat id2patt x = .error .indexError := by
  have hfirst : ∀ (t : String) (cs : List Xml), byTagL t.toList cs = [] → first t cs = .error .indexError := by
    intro t cs h
    rw [first, h]
  have hnat : ∀ (s : Str) (n : Nat), toNat s = some n → readNat toNat s = .ok n := by
    intro s n h
    rw [readNat, h]
  refine ⟨fun h => ?_, fun h => ?_, fun patt ps w j h1 h2 h3 => ⟨fun h => ?_, fun tg ts n k d h4 h5 h6 h7 h => ?_⟩⟩
  · have hm : ∃ l, patterns.mapM withId = .ok l := by
      refine ⟨_, mapM_ok _ (fun p => (p.id.getD 0, p)) _ ?_⟩
      intro p hpm
      unfold withId
      cases hid : p.id with
      | none => exact absurd hid (hp p hpm)
      | some n => rfl
    obtain ⟨l, hl⟩ := hm
    rw [readXml, hl]
    simp only [bind, Except.bind]
    rw [hfirst _ _ h]
  · rw [parseMacro, hv]
    simp only [bind, Except.bind]
    rw [hnat _ _ hi]
    simp only
    rw [hfirst _ _ h]
  · rw [parseMacro, hv]
    simp only [bind, Except.bind]
    rw [hnat _ _ hi]
    simp only
    rw [first_of h1]
    simp only
    rw [h2]
    simp only
    rw [hnat _ _ h3]
    simp only
    rw [hfirst _ _ h]
  · rw [parseMacro, hv]
    simp only [bind, Except.bind]
    rw [hnat _ _ hi]
    simp only
    rw [first_of h1]
    simp only
    rw [h2]
    simp only
    rw [hnat _ _ h3]
    simp only
    rw [first_of h4]
    simp only
    rw [h5]
    simp only
    rw [hnat _ _ h6]
    simp only
    rw [h7]
    simp only
    rw [hfirst _ _ h]

example : attrOf "id" (.elem "target-feature-macro".toList [("id".toList, "1".toList)] []) = .ok "1".toList ∧
    byTagL "target-fmt".toList [.elem "feature-fmt".toList [] []] = [] ∧
    byTagL "sub-graph-pattern".toList (Xml.elem "target-feature-macro".toList [("id".toList, "1".toList)] []).children = [] := by
  decide +kernel

/-- **C119** (numbers).  A macro whose number, or the number of whose pattern or target node, cannot be read is refused with a
`ValueError`; a feature node whose number cannot be read is no error. -/
theorem C119_numbers (toNat : Str → Option Nat) (id2patt : Dict Nat Pattern) (x : Xml) {v : Str} (hv : attrOf "id" x = .ok v) :
    (toNat v = none → parseMacro toNat id2patt x = .error .valueError) ∧
    ∀ (i : Nat) (patt : Xml) (ps : List Xml) (w : Str), toNat v = some i → byTagL "sub-graph-pattern".toList x.children = patt :: ps →
      attrOf "id" patt = .ok w →
      (toNat w = none → parseMacro toNat id2patt x = .error .valueError) ∧
      ∀ (j : Nat) (tg : Xml) (ts : List Xml) (n : Str), toNat w = some j → byTagL "target".toList x.children = tg :: ts →
        attrOf "nodeID" tg = .ok n → toNat n = none → parseMacro toNat id2patt x = .error .valueError := by
  have hnat : ∀ (s : Str) (n : Nat), toNat s = some n → readNat toNat s = .ok n := by
    intro s n h
    rw [readNat, h]
  have hbad : ∀ s : Str, toNat s = none → readNat toNat s = .error .valueError := by
    intro s h
    rw [readNat, h]
  refine ⟨fun h => ?_, fun i patt ps w hi h1 h2 => ⟨fun h => ?_, fun j tg ts n hj h3 h4 h => ?_⟩⟩
  · rw [parseMacro, hv]
    simp only [bind, Except.bind]
    rw [hbad _ h]
  · rw [parseMacro, hv]
    simp only [bind, Except.bind]
    rw [hnat _ _ hi]
    simp only
    rw [first_of h1]
    simp only
    rw [h2]
    simp only
    rw [hbad _ h]
  · rw [parseMacro, hv]
    simp only [bind, Except.bind]
    rw [hnat _ _ hi]
    simp only
    rw [first_of h1]
    simp only
    rw [h2]
    simp only
    rw [hnat _ _ hj]
    simp only
    rw [first_of h3]
    simp only
    rw [h4]
    simp only
    rw [hbad _ h]

example : attrOf "id" (.elem "target-feature-macro".toList [("id".toList, "x".toList)] []) = .ok "x".toList := by decide +kernel

end Verif.Dep
