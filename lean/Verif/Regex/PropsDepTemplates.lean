import Verif.Regex.PropsDepMatrix
import Verif.Dep.PropsTemplates
import Verif.Dep.PropsMacros

/-!
# C204 from the text of a dependency corpus; C205: from macro files and texts to the matrix
-/

namespace Verif.Regex

open Verif.Py
open Verif.Vocab.Plain (Str isSpace isBreak)
open Verif.Dep (LineFormat Word DepSettings CorpusFile Macro GoodMacro Readable depFound withFound matchMatrix templateCount IsTree
  MacroSpec Pattern ReadMacro GoodNames readXml docXml RootedTree isLinear isTokenAttr)
open Verif.Engine (DepCall)
open Verif.Matrix (entry Valid)

/-! ## Specification -/

/-- A macro as the file describes it can be used with the corpus: its pattern is among the given ones and is a rooted tree that contains
node 1; target and feature are nodes of it; all nodes and edges have conditions, on columns of the corpus of the right kind; what is
shown of targets, nodes and edges is among what is asked for (for tokens also file and line). -/
structure Usable (f : LineFormat) (ea : List String) (tok : Bool) (patterns : List Pattern) (ta na : List (Str × Nat)) (edge : Str) (s : MacroSpec) : Prop where
  pattern : ∃ p ∈ patterns, p.id = some s.pattern ∧ (∃ r, RootedTree p.graph r) ∧ (∃ l, isLinear p.graph = .ok l) ∧ 1 ∈ p.graph.nodes.keys ∧
    s.target ∈ p.graph.nodes.keys ∧ (∀ i, s.feature = some i → i ∈ p.graph.nodes.keys) ∧
    (∀ x c, p.graph.nodes.get? x = some c → c ≠ [] ∧ (∀ a ∈ Dict.keys c, isTokenAttr a = false ∧ a ∈ f.columns ∧ a ∈ f.nodeAttr) ∧
      ∀ a ∈ na, String.ofList a.1 ∈ Dict.keys c) ∧
    (∀ x c, p.graph.edges.get? x = some c → c ≠ [] ∧ (∀ a ∈ Dict.keys c, a ∈ f.columns ∧ a ∈ ea ∧ a ∉ f.nodeAttr) ∧ String.ofList edge ∈ Dict.keys c) ∧
    ∀ c, p.graph.nodes.get? s.target = some c → ∀ a ∈ ta, isTokenAttr (String.ofList a.1) = false → String.ofList a.1 ∈ Dict.keys c
  target : ∀ a ∈ ta, isTokenAttr (String.ofList a.1) = false → String.ofList a.1 ∈ f.columns ∧ String.ofList a.1 ∈ f.nodeAttr
  line : tok = true → ∀ a ∈ ta, String.ofList a.1 ≠ "LID"

/-- The template that a macro of the file describes. -/
structure Written (patterns : List Pattern) (ta na : List (Str × Nat)) (edge : Str) (s : MacroSpec) (m : Macro) : Prop where
  pattern : ∃ p ∈ patterns, p.id = some s.pattern ∧ m.graph = p.graph
  target : m.targetIdx = s.target
  feature : m.featureIdx = s.feature
  targetAttrs : m.targetAttrs = ta.map (fun a => (String.ofList a.1, a.2))
  nodeAttrs : m.featNodeAttrs = na.map (fun a => (String.ofList a.1, a.2))
  edgeAttrs : m.featEdgeAttrs = [(String.ofList edge, 1)]
  connector : m.connector = "/"

/-! ## Proofs -/

section
variable {u : Tables} {toInt : String → Option Nat} {tab close sep : Str} {columns nodeAttr : List String} {ea : List String}
  {currID headID : String}

/-- **C204**, from the text: the same for files given by the text of their sentences; the words that the templates are placed on are those of
the text, with their line numbers. -/
theorem C204_text {rx : String → String → Bool} {grp : String → String → Nat → Option String} {tok : Bool}
    {istree : Verif.Dep.Graph → Bool} (hist : ∀ g, istree g = true ↔ IsTree g)
    (ht : IsTab tab) {n : Nat} (hn : 1 ≤ n) (hc : columns.length = n + 1)
    (S : DepSettings (fmtOf u toInt tab sep n columns nodeAttr ea currID headID) ea)
    (hp : ∀ c ∈ close, Plain c) (hf : Fine close) (hct : '\t' ∉ close) (hs : IsSep close sep)
    {files : List CorpusFile} {src : CorpusFile → List DSent} (hsrc : ∀ c ∈ files, c.lines = depLines (textOf ((src c).flatMap (DSent.lines close))))
    (h : ∀ c ∈ files, ∀ s ∈ src c, s.Good toInt columns currID headID close) (targets : List String) {ms : List Macro}
    (hG : ∀ m ∈ ms, GoodMacro (fmtOf u toInt tab sep n columns nodeAttr ea currID headID) ea m) (hR : ∀ m ∈ ms, Readable tok m)
    (h0 : ∀ m ∈ ms, m.found = []) {W : Nat} {acc : Nat → List Verif.Dep.Match}
    (hcall : DepCall (depFound rx istree (fmtOf u toInt tab sep n columns nodeAttr ea currID headID) tok targets ms) W files (fun _ => []) acc) :
    ((∃ t c, templateCount rx grp targets tok (fun c => numbered columns 1 (src c)) files ms t c ≠ 0) →
      ∃ mtx, matchMatrix grp tok (withFound ms acc) = .ok mtx ∧ Valid mtx ∧
        mtx.rows.Pairwise (· ≤ ·) ∧ mtx.cols.Pairwise (· ≤ ·) ∧
        (∀ t, t ∈ mtx.rows ↔ ∃ c, templateCount rx grp targets tok (fun c => numbered columns 1 (src c)) files ms t c ≠ 0) ∧
        (∀ c, c ∈ mtx.cols ↔ ∃ t, templateCount rx grp targets tok (fun c => numbered columns 1 (src c)) files ms t c ≠ 0) ∧
        ∀ t c, entry mtx t c = (templateCount rx grp targets tok (fun c => numbered columns 1 (src c)) files ms t c : Nat)) ∧
    ((∀ t c, templateCount rx grp targets tok (fun c => numbered columns 1 (src c)) files ms t c = 0) →
      matchMatrix grp tok (withFound ms acc) = .error .valueError) := by
  refine Verif.Dep.C204_partial hist S ?_ ?_ targets hG hR h0 hcall
  · intro c hcm
    rw [hsrc c hcm]
    exact (C187_partial ht hn hc S hp hf hct hs (h c hcm)).1
  · intro c hcm ws hws
    exact numbered_good ht hc S.distinct (h c hcm) hws

theorem readXml_depth {toNat : Str → Option Nat} {doc : List Verif.Dep.Xml} {patterns : List Pattern} {ms : List ReadMacro}
    (h : readXml toNat doc patterns = .ok ms) : ∀ m ∈ ms, Verif.Dep.getDepth m.mac.graph = .ok m.mac.depth := by
  intro m hm
  obtain ⟨x, -, feature, p, t, -, hn⟩ := Verif.Dep.readXml_mem h hm
  unfold Verif.Dep.newMacro at hn
  obtain ⟨q, _, hn⟩ := Verif.Dep.bind_ok hn
  obtain ⟨d, hd, hn⟩ := Verif.Dep.bind_ok hn
  injection hn with hn
  have h1 := congrArg Macro.graph hn
  have h2 := congrArg Macro.depth hn
  simp only at h1 h2
  rw [← h1, ← h2]
  exact hd

/-- **C205.** From a macro file, the patterns it refers to and the texts of the corpus to the matrix of `build_dependency`: the file is read;
its macros are the templates it describes; for every number of workers and every schedule, if these templates can be placed on words
of the corpus, the entries of the matrix count the placements and its rows and columns are the targets and features that occur, sorted; if they
cannot, `ValueError`. -/
theorem C205_partial {rx : String → String → Bool} {grp : String → String → Nat → Option String} {tok : Bool}
    {istree : Verif.Dep.Graph → Bool} (hist : ∀ g, istree g = true ↔ IsTree g)
    (ht : IsTab tab) {n : Nat} (hn : 1 ≤ n) (hc : columns.length = n + 1)
    (S : DepSettings (fmtOf u toInt tab sep n columns nodeAttr ea currID headID) ea)
    (hp : ∀ c ∈ close, Plain c) (hf : Fine close) (hct : '\t' ∉ close) (hs : IsSep close sep)
    {files : List CorpusFile} {src : CorpusFile → List DSent} (hsrc : ∀ c ∈ files, c.lines = depLines (textOf ((src c).flatMap (DSent.lines close))))
    (h : ∀ c ∈ files, ∀ s ∈ src c, s.Good toInt columns currID headID close) (targets : List String)
    {num : Nat → Str} {white : Str} {toNat : Str → Option Nat} (hnum : ∀ n, toNat (num n) = some n) {c c' : Char} {ta na : List (Str × Nat)}
    (hta : GoodNames c ta) (hna : GoodNames c' na) {edge : Str} {specs : List MacroSpec} {patterns : List Pattern} {ids : List Nat}
    (hids : patterns.map Pattern.id = ids.map some) (hd : ids.Nodup)
    (hu : ∀ s ∈ specs, Usable (fmtOf u toInt tab sep n columns nodeAttr ea currID headID) ea tok patterns ta na edge s) :
    ∃ ms : List ReadMacro, readXml toNat (docXml num white c ta c' na edge specs) patterns = .ok ms ∧
      List.Forall₂ (Written patterns ta na edge) specs (ms.map ReadMacro.mac) ∧
      ∀ (W : Nat) (acc : Nat → List Verif.Dep.Match),
        DepCall (depFound rx istree (fmtOf u toInt tab sep n columns nodeAttr ea currID headID) tok targets (ms.map ReadMacro.mac)) W files (fun _ => []) acc →
        ((∃ t c, templateCount rx grp targets tok (fun c => numbered columns 1 (src c)) files (ms.map ReadMacro.mac) t c ≠ 0) →
          ∃ mtx, matchMatrix grp tok (withFound (ms.map ReadMacro.mac) acc) = .ok mtx ∧ Valid mtx ∧
            mtx.rows.Pairwise (· ≤ ·) ∧ mtx.cols.Pairwise (· ≤ ·) ∧
            (∀ t, t ∈ mtx.rows ↔ ∃ c, templateCount rx grp targets tok (fun c => numbered columns 1 (src c)) files (ms.map ReadMacro.mac) t c ≠ 0) ∧
            (∀ c, c ∈ mtx.cols ↔ ∃ t, templateCount rx grp targets tok (fun c => numbered columns 1 (src c)) files (ms.map ReadMacro.mac) t c ≠ 0) ∧
            ∀ t c, entry mtx t c = (templateCount rx grp targets tok (fun c => numbered columns 1 (src c)) files (ms.map ReadMacro.mac) t c : Nat)) ∧
        ((∀ t c, templateCount rx grp targets tok (fun c => numbered columns 1 (src c)) files (ms.map ReadMacro.mac) t c = 0) →
          matchMatrix grp tok (withFound (ms.map ReadMacro.mac) acc) = .error .valueError) := by
  obtain ⟨ms, hms, hw⟩ := Verif.Dep.C119_partial (w := white) hnum hta hna edge specs patterns ids hids hd (fun s hs => by
    obtain ⟨p, h1, h2, h3, h4, _⟩ := (hu s hs).pattern
    exact ⟨p, h1, h2, h3, h4⟩)
  have hdep := readXml_depth hms
  have hcon := Verif.Dep.C119_connector_false hms
  have huniq : ∀ p ∈ patterns, ∀ q ∈ patterns, ∀ i, p.id = some i → q.id = some i → p = q := by
    intro p hpm q hqm i h1 h2
    have hnd : (patterns.map Pattern.id).Nodup := by
      rw [hids]
      exact hd.map (Option.some_injective _)
    exact List.inj_on_of_nodup_map hnd hpm hqm (by rw [h1, h2])
  have hkeys : ∀ l : List (Str × Nat), Dict.keys (l.map (fun a => (String.ofList a.1, a.2))) = l.map (fun a => String.ofList a.1) := by
    intro l
    unfold Dict.keys
    rw [List.map_map]
    rfl
  -- every macro that was read, with its description
  have hall : ∀ m ∈ ms, ∃ s ∈ specs, Written patterns ta na edge s m.mac ∧ m.mac.found = [] := by
    intro m hm
    have hcm := hcon m hm
    clear hdep hcon hms hu
    induction hw with
    | nil => cases hm
    | cons h1 _ ih =>
      rcases List.mem_cons.1 hm with rfl | hm
      · obtain ⟨_, a1, a2, a3, _, _, a4, a5, a6, a7⟩ := h1
        exact ⟨_, List.mem_cons_self .., ⟨a1, a2, a3, a4, a5, a6, hcm⟩, a7⟩
      · obtain ⟨s, hs', r⟩ := ih hm
        exact ⟨s, List.mem_cons_of_mem _ hs', r⟩
  have hgood : ∀ m ∈ ms.map ReadMacro.mac, GoodMacro (fmtOf u toInt tab sep n columns nodeAttr ea currID headID) ea m ∧ Readable tok m ∧ m.found = [] := by
    intro m hm
    obtain ⟨rm, hrm, rfl⟩ := List.mem_map.1 hm
    obtain ⟨s, hsm, Wm, hfound⟩ := hall rm hrm
    obtain ⟨p, hpm, hpid, T, _, h1, htg, hft, hnodes, hedges, htc⟩ := (hu s hsm).pattern
    obtain ⟨q, hqm, hqid, hgq⟩ := Wm.pattern
    have hpq := huniq p hpm q hqm _ hpid hqid
    subst hpq
    refine ⟨⟨by rw [hgq]; exact T, by rw [hgq]; exact h1, hdep rm hrm, by rw [hgq, Wm.target]; exact htg, ?_, ?_, ?_⟩, ⟨?_, ?_, ?_, ?_, ?_⟩, hfound⟩
    · intro a ha hta'
      rw [Wm.targetAttrs, hkeys] at ha
      obtain ⟨b, hb, rfl⟩ := List.mem_map.1 ha
      exact (hu s hsm).target b hb hta'
    · intro x c hx
      rw [hgq] at hx
      exact ⟨(hnodes x c hx).1, (hnodes x c hx).2.1⟩
    · intro x c hx
      rw [hgq] at hx
      exact ⟨(hedges x c hx).1, (hedges x c hx).2.1⟩
    · intro c hx a ha hta'
      rw [hgq, Wm.target] at hx
      rw [Wm.targetAttrs, hkeys] at ha
      obtain ⟨b, hb, rfl⟩ := List.mem_map.1 ha
      exact htc c hx b hb hta'
    · intro htok ha
      rw [Wm.targetAttrs, hkeys] at ha
      obtain ⟨b, hb, hbe⟩ := List.mem_map.1 ha
      exact (hu s hsm).line htok b hb hbe
    · intro x c hx a ha
      rw [hgq] at hx
      rw [Wm.nodeAttrs, hkeys] at ha
      obtain ⟨b, hb, rfl⟩ := List.mem_map.1 ha
      exact (hnodes x c hx).2.2 b hb
    · intro x c hx a ha
      rw [hgq] at hx
      rw [Wm.edgeAttrs] at ha
      have ha : a ∈ [String.ofList edge] := ha
      rw [List.mem_singleton] at ha
      subst ha
      exact (hedges x c hx).2.2
    · intro i hi
      rw [hgq]
      exact hft i (Wm.feature ▸ hi)
  refine ⟨ms, hms, ?_, fun W acc hcall => ?_⟩
  · rw [List.forall₂_map_right_iff]
    clear hall hgood hdep hms
    induction hw with
    | nil => exact .nil
    | cons h1 _ ih =>
      obtain ⟨_, a1, a2, a3, _, _, a4, a5, a6, _⟩ := h1
      exact .cons ⟨a1, a2, a3, a4, a5, a6, hcon _ (List.mem_cons_self ..)⟩ (ih (fun s hs => hu s (List.mem_cons_of_mem _ hs)) (fun m hm => hcon m (List.mem_cons_of_mem _ hm)))
  · exact C204_text hist ht hn hc S hp hf hct hs hsrc h targets (fun m hm => (hgood m hm).1) (fun m hm => (hgood m hm).2.1) (fun m hm => (hgood m hm).2.2) hcall

end

/-! ### The sample corpus -/

/-- A pattern with an edge from a head to its subject. -/
def subjPattern : Pattern := ⟨⟨[(1, [("word", "(.+)")]), (2, [("word", "(.+)")])], [((1, 2), [("deprel", "(nsubj)$")])]⟩, some 7, none, false⟩

/-- Two macros: the subject with its head, and the head with its subject as the feature. -/
def subjSpecs : List MacroSpec := [⟨1, 7, 2, none, none, none⟩, ⟨2, 7, 1, some 2, some "verb".toList, none⟩]

theorem subj_usable : ∀ s ∈ subjSpecs, Usable stanford ["deprel"] false [subjPattern] [("word".toList, 1)] [("word".toList, 1)] "deprel".toList s := by
  intro s hs
  have hroot : ∃ r, RootedTree subjPattern.graph r := ⟨1, Verif.Dep.Relation1.tree (p := { plainRelation "word" "deprel" "nsubj".toList with rel := [("deprel", "(nsubj)$")] })⟩
  have hnode : ∀ x c, subjPattern.graph.nodes.get? x = some c → c = [("word", "(.+)")] := by
    intro x c hx
    have := Dict.mem_of_get? hx
    simp only [subjPattern, List.mem_cons, List.not_mem_nil, or_false, Prod.mk.injEq] at this
    rcases this with ⟨_, rfl⟩ | ⟨_, rfl⟩ <;> rfl
  have hedge : ∀ x c, subjPattern.graph.edges.get? x = some c → c = [("deprel", "(nsubj)$")] := by
    intro x c hx
    have := Dict.mem_of_get? hx
    simp only [subjPattern, List.mem_cons, List.not_mem_nil, or_false, Prod.mk.injEq] at this
    exact this.2
  have hs' : s.pattern = 7 ∧ s.target ∈ subjPattern.graph.nodes.keys ∧ ∀ i, s.feature = some i → i ∈ subjPattern.graph.nodes.keys := by
    simp only [subjSpecs, List.mem_cons, List.not_mem_nil, or_false] at hs
    rcases hs with rfl | rfl
    · exact ⟨rfl, by decide, fun i h => nomatch h⟩
    · exact ⟨rfl, by decide, fun i h => by cases h; decide⟩
  refine ⟨⟨subjPattern, List.mem_singleton.2 rfl, by rw [hs'.1]; rfl, hroot, ⟨true, by decide⟩, by decide, hs'.2.1, hs'.2.2, ?_, ?_, ?_⟩, by decide, fun h => nomatch h⟩
  · intro x c hx
    rw [hnode x c hx]
    decide
  · intro x c hx
    rw [hedge x c hx]
    decide
  · intro c hx
    rw [hnode _ c hx]
    decide

/-- C205 on the sample: the file of the two macros is read, and on the text of the sample corpus there is a call for them. -/
example : ∃ (istree : Verif.Dep.Graph → Bool) (ms : List ReadMacro) (acc : Nat → List Verif.Dep.Match), (∀ g, istree g = true ↔ IsTree g) ∧
    readXml Verif.Dep.unUnary (docXml Verif.Dep.unary " ".toList '/' [("word".toList, 1)] '/' [("word".toList, 1)] "deprel".toList subjSpecs) [subjPattern] = .ok ms ∧
    ms.length = 2 ∧
    DepCall (depFound (rxS ascii) istree stanford false ["girl", "eats"] (ms.map ReadMacro.mac)) 1 [sampleText sampleSents] (fun _ => []) acc ∧
    ∀ t c, (∃ mtx, matchMatrix (grpS ascii) false (withFound (ms.map ReadMacro.mac) acc) = .ok mtx ∧
        entry mtx t c = (templateCount (rxS ascii) (grpS ascii) ["girl", "eats"] false (fun _ => numbered ["word", "id", "head", "deprel"] 1 sampleSents)
          [sampleText sampleSents] (ms.map ReadMacro.mac) t c : Nat)) ∨
      matchMatrix (grpS ascii) false (withFound (ms.map ReadMacro.mac) acc) = .error .valueError := by
  classical
  obtain ⟨ms, h1, h2, h3⟩ := C205_partial (rx := rxS ascii) (grp := grpS ascii) (tok := false) (u := ascii) (istree := fun g => decide (IsTree g))
    (fun g => decide_eq_true_iff) (tab := ['\\', 't']) (.inr rfl) (n := 3) (by decide) rfl
    stanford_settings (close := ['<', '/', 's', '>']) (by decide) (by decide +kernel) (by decide) (.inr rfl)
    (files := [sampleText sampleSents]) (src := fun _ => sampleSents) (by intro c h; rcases List.mem_singleton.1 h with rfl; rfl)
    (fun _ _ => sample_good) ["girl", "eats"] (num := Verif.Dep.unary) (white := " ".toList) (toNat := Verif.Dep.unUnary)
    (fun n => by unfold Verif.Dep.unUnary Verif.Dep.unary; rw [if_pos] <;> simp) (c := '/') (c' := '/')
    (ta := [("word".toList, 1)]) (na := [("word".toList, 1)]) ⟨by decide, by decide, by decide, by decide⟩ ⟨by decide, by decide, by decide, by decide⟩
    (edge := "deprel".toList) (specs := subjSpecs) (patterns := [subjPattern]) (ids := [7]) rfl (by decide) subj_usable
  obtain ⟨acc, hacc⟩ := one_call (depFound (rxS ascii) (fun g => decide (IsTree g)) stanford false ["girl", "eats"] (ms.map ReadMacro.mac)) (sampleText sampleSents)
  have hl := h2.length_eq
  rw [List.length_map] at hl
  refine ⟨_, ms, acc, fun g => decide_eq_true_iff, h1, hl.symm, hacc, fun t c => ?_⟩
  obtain ⟨a, b⟩ := h3 1 acc hacc
  by_cases h : ∃ t c, templateCount (rxS ascii) (grpS ascii) ["girl", "eats"] false (fun _ => numbered ["word", "id", "head", "deprel"] 1 sampleSents)
      [sampleText sampleSents] (ms.map ReadMacro.mac) t c ≠ 0
  · obtain ⟨mtx, m1, _, _, _, _, _, m2⟩ := a h
    exact .inl ⟨mtx, m1, m2 t c⟩
  · exact .inr (b (fun t c => not_not.1 (fun hne => h ⟨t, c, hne⟩)))

end Verif.Regex
