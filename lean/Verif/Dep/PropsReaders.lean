import Verif.Dep.Readers
import Verif.Dep.MatchLemmas
import Mathlib.Data.List.Induction

/-!
# Reading patterns from GraphML files: C117 and C118
-/

namespace Verif.Dep
open Verif.Py Verif.Vocab.Plain
set_option linter.unusedSectionVars false

/-! ### C117 -/

theorem starts_mono {l : Str} (h : starts "</graphml" l = true) : starts "</graph" l = true := by
  unfold starts at h ⊢
  rw [List.isPrefixOf_iff_prefix] at h ⊢
  exact List.IsPrefix.trans (by decide) h

/-- A line that closes a graph (and not the file). -/
def Closes (l : Str) : Prop := starts "</graph" l = true ∧ starts "</graphml" l = false

/-- A line without a closing tag of a graph or of the file at its beginning. -/
def Plain (l : Str) : Prop := starts "</graph" l = false

theorem Plain.not_end {l : Str} (h : Plain l) : starts "</graphml" l = false := by
  cases hc : starts "</graphml" l with
  | false => rfl
  | true => exact absurd (starts_mono hc) (by rw [h]; decide)

theorem pieces_plain (body : List Str) (hb : ∀ l ∈ body, Plain l) (cur ls : List Str) :
    pieces cur (body ++ ls) = pieces (cur ++ body) ls := by
  induction body generalizing cur with
  | nil => simp
  | cons b body ih =>
    have h := hb b (by simp)
    have h2 := h.not_end
    unfold Plain at h
    rw [List.cons_append, pieces, h2, h]
    simp only [Bool.false_eq_true, if_false]
    rw [ih (fun l hl => hb l (by simp [hl]))]
    simp

theorem pieces_graph {body : List Str} (hb : ∀ l ∈ body, Plain l) {e : Str} (he : Closes e) (cur ls : List Str) :
    pieces cur (body ++ e :: ls) = ((cur ++ body ++ [e]) :: (pieces [] ls).1, (pieces [] ls).2) := by
  rw [pieces_plain body hb, pieces, he.1, he.2]
  simp

theorem pieces_layout (segs : List (List Str × Str)) (hs : ∀ s ∈ segs, (∀ l ∈ s.1, Plain l) ∧ Closes s.2) {junk : List Str}
    (hj : ∀ l ∈ junk, Plain l) {ender : Str} (he : starts "</graphml" ender = true) (rest : List Str) :
    pieces [] ((segs.flatMap (fun s => s.1 ++ [s.2])) ++ junk ++ ender :: rest) =
      (segs.map (fun s => s.1 ++ [s.2]), some ender) := by
  induction segs with
  | nil =>
    simp only [List.flatMap_nil, List.nil_append, List.map_nil]
    rw [pieces_plain junk hj, pieces, he]
    simp
  | cons s segs ih =>
    have h := hs s (by simp)
    have ih' := ih (fun x hx => hs x (by simp [hx]))
    have he : ((s :: segs).flatMap (fun s => s.1 ++ [s.2])) ++ junk ++ ender :: rest =
        s.1 ++ s.2 :: ((segs.flatMap (fun s => s.1 ++ [s.2])) ++ junk ++ ender :: rest) := by simp
    rw [he, pieces_graph h.1 h.2, ih']
    simp

/-- **C117 (partial).** For a file laid out in lines - head lines, then the graphs, each from a line with its opening tag to
a line with its closing tag (blank lines or comments between them go to the next graph), at last a line with the closing tag
of the file - every graph is handed to the parser together with the head and the end, once and in order; so there is one
pattern per graph, in order, or the exception of the first one that cannot be read. -/
theorem C117_partial (lib : GraphmlLib) (header : List Str) (hh : ∀ l ∈ header, graphStart l = false)
    (start : Str) (hstart : graphStart start = true) (body : List Str) (hb : ∀ l ∈ start :: body, Plain l) (close : Str)
    (hc : Closes close) (segs : List (List Str × Str)) (hs : ∀ s ∈ segs, (∀ l ∈ s.1, Plain l) ∧ Closes s.2)
    (junk : List Str) (hj : ∀ l ∈ junk, Plain l) (ender : Str) (he : starts "</graphml" ender = true) (rest : List Str)
    (keys : List (String × String × Option String))
    (hk : lib.keys (header ++ (start :: body) ++ [close] ++ segs.flatMap (fun s => s.1 ++ [s.2]) ++ junk ++ ender :: rest) =
      .ok keys) :
    readGraphml lib (header ++ (start :: body) ++ [close] ++ segs.flatMap (fun s => s.1 ++ [s.2]) ++ junk ++ ender :: rest) =
      (((start :: body, close) :: segs).map (fun s => header ++ (s.1 ++ [s.2]) ++ [ender])).mapM
        (graphmlPattern lib (defaultsOf keys)) := by
  have hlines : header ++ (start :: body) ++ [close] ++ segs.flatMap (fun s => s.1 ++ [s.2]) ++ junk ++ ender :: rest =
      header ++ ((((start :: body, close) :: segs).flatMap (fun s => s.1 ++ [s.2])) ++ junk ++ ender :: rest) := by simp
  have hdocs : graphDocs (header ++ ((((start :: body, close) :: segs).flatMap (fun s => s.1 ++ [s.2])) ++ junk ++ ender :: rest)) =
      .ok (((start :: body, close) :: segs).map (fun s => header ++ (s.1 ++ [s.2]) ++ [ender])) := by
    have hall : ∀ l ∈ header, (!graphStart l) = true := by intro l hl; rw [hh l hl]; rfl
    have h2 : (!graphStart start) = false := by rw [hstart]; rfl
    have hp := pieces_layout ((start :: body, close) :: segs)
      (by intro s hs'; rcases List.mem_cons.1 hs' with rfl | hs'; exacts [⟨hb, hc⟩, hs s hs']) hj he rest
    have ht : (header ++ ((((start :: body, close) :: segs).flatMap (fun s => s.1 ++ [s.2])) ++ junk ++ ender :: rest)).takeWhile
        (fun l => !graphStart l) = header := by
      rw [List.takeWhile_append_of_pos hall]
      simp [h2]
    have hd : (header ++ ((((start :: body, close) :: segs).flatMap (fun s => s.1 ++ [s.2])) ++ junk ++ ender :: rest)).dropWhile
        (fun l => !graphStart l) = (((start :: body, close) :: segs).flatMap (fun s => s.1 ++ [s.2])) ++ junk ++ ender :: rest := by
      rw [List.dropWhile_append_of_pos hall]
      simp [h2]
    unfold graphDocs
    simp only [ht, hd, hp, List.map_map]
    rfl
  rw [hlines] at hk ⊢
  unfold readGraphml
  rw [hdocs, hk]
  rfl

/-- The lines that are looked at: from the first one that opens a graph to the first one that closes the file. -/
def region (lines : List Str) : List Str :=
  (lines.dropWhile (fun l => !graphStart l)).takeWhile (fun l => !starts "</graphml" l)

theorem pieces_spec (ls cur : List Str) (hcur : ∀ l ∈ cur, Plain l) :
    (∃ left, (pieces cur ls).1.flatten ++ left = cur ++ ls.takeWhile (fun l => !starts "</graphml" l) ∧ ∀ l ∈ left, Plain l) ∧
      (∀ p ∈ (pieces cur ls).1, ∃ body e, p = body ++ [e] ∧ (∀ l ∈ body, Plain l) ∧ Closes e) ∧
      (pieces cur ls).2 = ls.find? (fun l => starts "</graphml" l) := by
  induction ls generalizing cur with
  | nil => exact ⟨⟨cur, by simp [pieces], hcur⟩, by simp [pieces], by simp [pieces]⟩
  | cons l ls ih =>
    cases h1 : starts "</graphml" l with
    | true =>
      have : pieces cur (l :: ls) = ([], some l) := by rw [pieces, h1]; simp
      rw [this]
      exact ⟨⟨cur, by simp [h1], hcur⟩, by simp, by simp [h1]⟩
    | false =>
      cases h2 : starts "</graph" l with
      | true =>
        have : pieces cur (l :: ls) = ((cur ++ [l]) :: (pieces [] ls).1, (pieces [] ls).2) := by
          rw [pieces, h1, h2]; simp
        rw [this]
        obtain ⟨⟨left, hl, hp⟩, hb, he⟩ := ih [] (by simp)
        refine ⟨⟨left, ?_, hp⟩, ?_, ?_⟩
        · simp only [List.flatten_cons, List.append_assoc, hl, List.takeWhile_cons, h1, Bool.not_false, if_true]
          simp
        · intro p hp'
          rcases List.mem_cons.1 hp' with rfl | hp'
          · exact ⟨cur, l, rfl, hcur, h2, h1⟩
          · exact hb p hp'
        · simp [h1, he]
      | false =>
        have : pieces cur (l :: ls) = pieces (cur ++ [l]) ls := by rw [pieces, h1, h2]; simp
        rw [this]
        obtain ⟨⟨left, hl, hp⟩, hb, he⟩ := ih (cur ++ [l]) (by
          intro x hx
          rcases List.mem_append.1 hx with hx | hx
          · exact hcur x hx
          · rw [List.mem_singleton.1 hx]; exact h2)
        refine ⟨⟨left, ?_, hp⟩, hb, ?_⟩
        · rw [hl]; simp [h1]
        · rw [he]; simp [h1]

theorem pieces_count (ls cur : List Str) (hcur : ∀ l ∈ cur, Plain l) :
    (pieces cur ls).1.length = (ls.takeWhile (fun l => !starts "</graphml" l)).countP (fun l => starts "</graph" l) := by
  obtain ⟨⟨left, hl, hp⟩, hb, -⟩ := pieces_spec ls cur hcur
  have hz : ∀ m : List Str, (∀ l ∈ m, Plain l) → m.countP (fun l => starts "</graph" l) = 0 := by
    intro m hm
    rw [List.countP_eq_zero]
    intro l hl'
    have := hm l hl'
    unfold Plain at this
    simp [this]
  have h1 : (cur ++ ls.takeWhile (fun l => !starts "</graphml" l)).countP (fun l => starts "</graph" l) =
      (ls.takeWhile (fun l => !starts "</graphml" l)).countP (fun l => starts "</graph" l) := by
    rw [List.countP_append, hz cur hcur, Nat.zero_add]
  rw [← h1, ← hl, List.countP_append, hz left hp, Nat.add_zero]
  clear hl h1
  revert hb
  generalize (pieces cur ls).1 = ps
  intro hb
  induction ps with
  | nil => rfl
  | cons p ps ih =>
    obtain ⟨body, e, rfl, hbody, hc⟩ := hb p (by simp)
    have he : [e].countP (fun l => starts "</graph" l) = 1 := by simp [List.countP_cons, hc.1]
    rw [List.flatten_cons, List.countP_append, List.countP_append, hz body hbody, List.length_cons,
      ih (fun q hq => hb q (by simp [hq])), he]
    omega

theorem strip_prefix {u : Str} (hu : u ≠ []) (hs : ∀ c ∈ u, isSpace c = false) (v : Str) :
    ∃ w, strip (u ++ v) = u ++ w ∧ w <+: v := by
  have h1 : (u ++ v).dropWhile isSpace = u ++ v := by
    cases u with
    | nil => exact absurd rfl hu
    | cons c u => simp [hs c (by simp)]
  have h2 : u.reverse.dropWhile isSpace = u.reverse := by
    cases hr : u.reverse with
    | nil => rfl
    | cons c r =>
      have : c ∈ u := by rw [← List.mem_reverse, hr]; simp
      simp [hs c this]
  unfold strip
  rw [h1, List.reverse_append, List.dropWhile_append]
  by_cases hv : (v.reverse.dropWhile isSpace).isEmpty
  · rw [if_pos hv, h2]
    exact ⟨[], by simp, by simp⟩
  · rw [if_neg hv]
    refine ⟨(v.reverse.dropWhile isSpace).reverse, by simp, ?_⟩
    have := List.dropWhile_suffix (p := isSpace) (l := v.reverse)
    simpa using List.reverse_prefix.2 this

/-- **What is read from any file**: as many patterns as lines *begin* with the closing tag of a graph, between the first
line that begins with an opening tag of a graph and the first one that begins with the closing tag of the file; and if
that last line is missing, `TypeError` (unless there is no such line at all). -/
theorem C117_exact (lib : GraphmlLib) (lines : List Str) :
    (∀ ps, readGraphml lib lines = .ok ps → ps.length = (region lines).countP (fun l => starts "</graph" l)) ∧
      ((region lines).countP (fun l => starts "</graph" l) ≠ 0 →
        (∀ l ∈ lines.dropWhile (fun l => !graphStart l), starts "</graphml" l = false) →
        readGraphml lib lines = .error .typeError) := by
  have hcount := pieces_count (lines.dropWhile (fun l => !graphStart l)) [] (by simp)
  have hend := (pieces_spec (lines.dropWhile (fun l => !graphStart l)) [] (by simp)).2.2
  constructor
  · intro ps h
    unfold readGraphml at h
    cases hd : graphDocs lines with
    | error e => rw [hd] at h; exact nomatch h
    | ok docs =>
      rw [hd] at h
      have hlen : docs.length = (region lines).countP (fun l => starts "</graph" l) := by
        unfold region
        rw [← hcount]
        unfold graphDocs at hd
        simp only at hd
        split at hd
        · injection hd with hd; rw [← hd]; simp
        · next hn =>
          split at hd
          · next hnil => injection hd with hd; rw [← hd, hnil]
          · exact nomatch hd
      cases hk : lib.keys lines with
      | error e =>
        have h' : (lib.keys lines >>= fun keys => docs.mapM (graphmlPattern lib (defaultsOf keys))) = .ok ps := h
        rw [hk] at h'; exact nomatch h'
      | ok keys =>
        have h' : (lib.keys lines >>= fun keys => docs.mapM (graphmlPattern lib (defaultsOf keys))) = .ok ps := h
        rw [hk] at h'
        have h'' : docs.mapM (graphmlPattern lib (defaultsOf keys)) = .ok ps := h'
        rw [← hlen]
        clear * - h''
        induction docs generalizing ps with
        | nil => rw [List.mapM_nil] at h''; injection h'' with h''; rw [← h'']; rfl
        | cons d ds ih =>
          rw [List.mapM_cons] at h''
          cases h1 : graphmlPattern lib (defaultsOf keys) d with
          | error e => rw [h1] at h''; exact nomatch h''
          | ok p =>
            rw [h1] at h''
            cases h2 : ds.mapM (graphmlPattern lib (defaultsOf keys)) with
            | error e =>
              have h3 : (ds.mapM (graphmlPattern lib (defaultsOf keys)) >>= fun r => pure (p :: r)) = Except.ok ps := h''
              rw [h2] at h3; exact nomatch h3
            | ok qs =>
              have h3 : (ds.mapM (graphmlPattern lib (defaultsOf keys)) >>= fun r => pure (p :: r)) = Except.ok ps := h''
              rw [h2] at h3
              injection h3 with h3
              rw [← h3, List.length_cons, List.length_cons, ih qs h2]
  · intro hne hno
    have hn : (pieces [] (lines.dropWhile (fun l => !graphStart l))).2 = none := by
      rw [hend, List.find?_eq_none]
      intro l hl
      rw [hno l hl]; decide
    have hp : (pieces [] (lines.dropWhile (fun l => !graphStart l))).1 ≠ [] := by
      intro h0
      rw [h0] at hcount
      exact hne (by unfold region; rw [← hcount]; rfl)
    have hd : graphDocs lines = .error .typeError := by
      unfold graphDocs
      simp only [hn, if_neg hp]
    unfold readGraphml
    rw [hd]
    rfl

/-- **C117 is false**: a file in which no line begins with the opening tag of a graph - such as a file in one line - gives
no patterns and no error, whatever it contains; and a graph in one line (`a`) is read together with the next one, so that
a file with two graphs gives one pattern. -/
theorem C117_false (lib : GraphmlLib) :
    (∀ lines keys, (∀ l ∈ lines, graphStart l = false) → lib.keys lines = .ok keys → readGraphml lib lines = .ok []) ∧
      (∀ a b ps, readGraphml lib ["<graphml>".toList, "<graph id='1'>".toList ++ a ++ "</graph>".toList,
          "<graph id='2'>".toList ++ b, "</graph>".toList, "</graphml>".toList] = .ok ps → ps.length = 1) := by
  constructor
  · intro lines keys h hk
    have hall : ∀ ls : List Str, (∀ l ∈ ls, graphStart l = false) → ls.dropWhile (fun l => !graphStart l) = [] := by
      intro ls hls
      induction ls with
      | nil => rfl
      | cons l ls ih =>
        rw [List.dropWhile_cons, hls l (by simp)]
        simp only [Bool.not_false, if_true]
        exact ih (fun x hx => hls x (by simp [hx]))
    have hd := hall lines h
    have hg : graphDocs lines = .ok [] := by
      unfold graphDocs
      simp only [hd, pieces, if_true]
    unfold readGraphml
    rw [hg, hk]
    rfl
  · intro a b ps h
    have hx := (C117_exact lib _).1 ps h
    rw [hx]
    have opening : ∀ v : Str, starts "</graph" ("<graph ".toList ++ v) = false ∧ graphStart ("<graph ".toList ++ v) = true ∧
        starts "</graphml" ("<graph ".toList ++ v) = false := by
      intro v
      obtain ⟨w, hw, hp⟩ := strip_prefix (u := "<graph".toList) (by decide) (by decide) (" ".toList ++ v)
      have hl : "<graph ".toList ++ v = "<graph".toList ++ (" ".toList ++ v) := rfl
      unfold graphStart starts
      rw [hl, hw]
      cases w with
      | nil => decide
      | cons c w =>
        have hc : c = ' ' := by
          obtain ⟨t, ht⟩ := hp
          have ht' : c :: (w ++ t) = ' ' :: v := ht
          injection ht'
        subst hc
        exact ⟨rfl, rfl, rfl⟩
    have e1 : "<graph id='1'>".toList ++ a ++ "</graph>".toList = "<graph ".toList ++ ("id='1'>".toList ++ a ++ "</graph>".toList) := rfl
    have e2 : "<graph id='2'>".toList ++ b = "<graph ".toList ++ ("id='2'>".toList ++ b) := rfl
    rw [e1, e2]
    unfold region
    obtain ⟨o1, o2, o3⟩ := opening ("id='1'>".toList ++ a ++ "</graph>".toList)
    obtain ⟨o4, -, o6⟩ := opening ("id='2'>".toList ++ b)
    have g1 : graphStart "<graphml>".toList = false := by decide
    have g2 : starts "</graphml" "</graph>".toList = false := by decide
    have g3 : starts "</graph" "</graph>".toList = true := by decide
    have g4 : starts "</graphml" "</graphml>".toList = true := by decide
    simp only [List.dropWhile_cons, g1, o2, Bool.not_false, Bool.not_true, if_true, Bool.false_eq_true, if_false,
      List.takeWhile_cons, o3, o6, g2, g4, List.countP_cons, o1, o4, g3, List.countP_nil]

/-! ### C118 -/

/-- Specification: the default declared last for an attribute. -/
def lastDefault (keys : List (String × String × Option String)) (a : String) : Option String :=
  (keys.reverse.find? (fun k => decide (k.1 = a) && k.2.2.isSome)).bind (fun k => k.2.2)

theorem get?_ofPairs_append {κ ν : Type} [DecidableEq κ] (ps : List (κ × ν)) (k : κ) (v : ν) (a : κ) :
    Dict.get? (Dict.ofPairs (ps ++ [(k, v)])) a = if k = a then some v else Dict.get? (Dict.ofPairs ps) a := by
  unfold Dict.ofPairs
  rw [List.foldl_append]
  simp only [List.foldl_cons, List.foldl_nil, Dict.get?_set]

theorem get?_defaultsOf (keys : List (String × String × Option String)) (a : String) :
    Dict.get? (defaultsOf keys) a = lastDefault keys a := by
  unfold defaultsOf lastDefault
  induction keys using List.reverseRecOn with
  | nil => rfl
  | append_singleton keys k ih =>
    rw [List.filterMap_append, List.reverse_append]
    obtain ⟨n, f, d⟩ := k
    cases d with
    | none => simp [ih]
    | some v =>
      have : List.filterMap (fun k : String × String × Option String => k.2.2.map (fun v => (k.1, v))) [(n, f, some v)] = [(n, v)] := rfl
      rw [this, get?_ofPairs_append, ih]
      by_cases h : n = a <;> simp [h]

theorem get?_addDefaults (d : Dict String String) (hd : Dict.WF d) (attrs : Attrs) (a : String) :
    Dict.get? (addDefaults d attrs) a = (Dict.get? attrs a).or (Dict.get? d a) := by
  unfold addDefaults
  induction d generalizing attrs with
  | nil => simp
  | cons e d ih =>
    have hd' : Dict.WF d := (List.nodup_cons.1 hd).2
    have hn : e.1 ∉ Dict.keys d := (List.nodup_cons.1 hd).1
    rw [List.foldl_cons, ih hd', Dict.get?_cons]
    by_cases hk : e.1 ∈ Dict.keys attrs
    · rw [if_pos hk]
      by_cases ha : e.1 = a
      · subst ha
        rw [if_pos rfl]
        cases hg : Dict.get? attrs e.1 with
        | none => exact absurd hk ((Dict.get?_eq_none_iff _ _).1 hg)
        | some v => rfl
      · rw [if_neg ha]
    · rw [if_neg hk, Dict.get?_set]
      by_cases ha : e.1 = a
      · subst ha
        rw [if_pos rfl, if_pos rfl, (Dict.get?_eq_none_iff _ _).2 hk]
        rfl
      · rw [if_neg ha, if_neg ha]

theorem finishPattern_graph {g : Graph} {p : Pattern} (h : finishPattern g = .ok p) : p.graph = g := by
  unfold finishPattern at h
  cases hl : isLinear g with
  | error e => rw [hl] at h; exact nomatch h
  | ok b => rw [hl] at h; injection h with h; rw [← h]

theorem patternOf_graph {g : Graph} {p : Pattern} (h : patternOf g = .ok p) : p.graph = g := by
  unfold patternOf at h
  split at h
  · exact nomatch h
  · exact finishPattern_graph h

theorem get?_mapSnd {κ α β : Type} [DecidableEq κ] (f : α → β) (d : Dict κ α) (k : κ) :
    Dict.get? (d.map (fun e : κ × α => (e.1, f e.2))) k = (Dict.get? d k).map f := by
  induction d with
  | nil => rfl
  | cons e d ih =>
    rw [List.map_cons, Dict.get?_cons, Dict.get?_cons, ih]
    split <;> rfl

theorem graphmlPattern_ok {lib : GraphmlLib} {defaults : Dict String String} {doc : List Str} {p : Pattern}
    (h : graphmlPattern lib defaults doc = .ok p) :
    ∃ g gid, lib.parse doc = .ok g ∧ lib.graphId doc = .ok gid ∧ p.id = some gid ∧
      p.graph = { g with nodes := g.nodes.map (fun e => (e.1, addDefaults defaults e.2)) } := by
  unfold graphmlPattern at h
  cases h1 : lib.parse doc with
  | error e => rw [h1] at h; exact nomatch h
  | ok g =>
    rw [h1] at h
    cases h2 : lib.graphId doc with
    | error e =>
      have h' : (lib.graphId doc >>= fun gid => patternOf { g with nodes := g.nodes.map (fun e => (e.1, addDefaults defaults e.2)) } >>=
        fun p => Except.ok { p with id := some gid }) = Except.ok p := h
      rw [h2] at h'; exact nomatch h'
    | ok gid =>
      have h' : (lib.graphId doc >>= fun gid => patternOf { g with nodes := g.nodes.map (fun e => (e.1, addDefaults defaults e.2)) } >>=
        fun p => Except.ok { p with id := some gid }) = Except.ok p := h
      rw [h2] at h'
      cases h3 : patternOf { g with nodes := g.nodes.map (fun e => (e.1, addDefaults defaults e.2)) } with
      | error e =>
        have h'' : (patternOf { g with nodes := g.nodes.map (fun e => (e.1, addDefaults defaults e.2)) } >>=
          fun p => Except.ok { p with id := some gid }) = Except.ok p := h'
        rw [h3] at h''; exact nomatch h''
      | ok q =>
        have h'' : (patternOf { g with nodes := g.nodes.map (fun e => (e.1, addDefaults defaults e.2)) } >>=
          fun p => Except.ok { p with id := some gid }) = Except.ok p := h'
        rw [h3] at h''
        injection h'' with h''
        exact ⟨g, gid, rfl, rfl, by rw [← h''], by rw [← h'']; exact (patternOf_graph h3 : q.graph = _)⟩

/-- **What the defaults of a file do**: the pattern has the nodes and the edges of the graph in the file; a node has its own
conditions, and for every other attribute with a default in the file that default - whether it was declared for nodes or
for edges; edges have their own conditions only. -/
theorem C118_exact {lib : GraphmlLib} {keys : List (String × String × Option String)} {doc : List Str} {p : Pattern}
    (h : graphmlPattern lib (defaultsOf keys) doc = .ok p) :
    ∃ g : Graph, lib.parse doc = .ok g ∧ p.graph.edges = g.edges ∧ Dict.keys p.graph.nodes = Dict.keys g.nodes ∧
      ∀ v attrs, Dict.get? g.nodes v = some attrs → ∃ attrs', Dict.get? p.graph.nodes v = some attrs' ∧
        ∀ a, Dict.get? attrs' a = (Dict.get? attrs a).or (lastDefault keys a) := by
  obtain ⟨g, gid, h1, -, -, hg⟩ := graphmlPattern_ok h
  refine ⟨g, h1, by rw [hg], ?_, ?_⟩
  · rw [hg]
    simp only [Dict.keys, List.map_map]
    rfl
  · intro v attrs hv
    refine ⟨addDefaults (defaultsOf keys) attrs, ?_, ?_⟩
    · rw [hg]
      show Dict.get? (g.nodes.map (fun e => (e.1, addDefaults (defaultsOf keys) e.2))) v = _
      rw [get?_mapSnd, hv]
      rfl
    · intro a
      rw [get?_addDefaults (defaultsOf keys) (Dict.WF_ofPairs _), get?_defaultsOf]

/-- **C118 (partial).** If only attributes of nodes have defaults, then defaults are applied as declared: every node gets
the defaults for nodes where it has no condition of its own, and edges get none. -/
theorem C118_partial {lib : GraphmlLib} {keys : List (String × String × Option String)} {doc : List Str} {p : Pattern}
    (h : graphmlPattern lib (defaultsOf keys) doc = .ok p) (hk : ∀ k ∈ keys, k.2.2.isSome → k.2.1 = "node") :
    ∃ g : Graph, lib.parse doc = .ok g ∧ p.graph.edges = g.edges ∧ Dict.keys p.graph.nodes = Dict.keys g.nodes ∧
      ∀ v attrs, Dict.get? g.nodes v = some attrs → ∃ attrs', Dict.get? p.graph.nodes v = some attrs' ∧
        ∀ a, Dict.get? attrs' a = (Dict.get? attrs a).or (lastDefault (keys.filter (fun k => k.2.1 = "node")) a) := by
  obtain ⟨g, h1, h2, h3, h4⟩ := C118_exact h
  refine ⟨g, h1, h2, h3, ?_⟩
  intro v attrs hv
  obtain ⟨attrs', h5, h6⟩ := h4 v attrs hv
  refine ⟨attrs', h5, fun a => ?_⟩
  rw [h6 a]
  have : lastDefault (keys.filter (fun k => k.2.1 = "node")) a = lastDefault keys a := by
    unfold lastDefault
    rw [← List.filter_reverse, List.find?_filter]
    congr 1
    have hk' : ∀ k ∈ keys.reverse, k.2.2.isSome → k.2.1 = "node" := fun k hk1 => hk k (List.mem_reverse.1 hk1)
    revert hk'
    generalize keys.reverse = l
    intro hk'
    induction l with
    | nil => rfl
    | cons k l ih =>
      rw [List.find?_cons, List.find?_cons, ih (fun x hx => hk' x (by simp [hx]))]
      by_cases hs : k.2.2.isSome
      · simp [hk' k (by simp) hs]
      · simp [hs]
  rw [this]

/-- If a pattern node has a condition on an attribute that a word does not have, the word does not match it. -/
theorem matchNode_missing (rx : String → String → Bool) {p : Graph} {v : Nat} {attrs item : Attrs} {a r : String}
    (hv : Dict.get? p.nodes v = some attrs) (ha : Dict.get? attrs a = some r) (hi : Dict.get? item a = none) :
    matchNode rx p item v ≠ .ok true := by
  have key : ∀ attrs : Attrs, (a, r) ∈ attrs → matchNodeLoop rx attrs item ≠ .ok true := by
    intro attrs
    induction attrs with
    | nil => intro h; cases h
    | cons e attrs ih =>
      intro h
      rw [matchNodeLoop]
      rcases List.mem_cons.1 h with rfl | h
      · simp [hi]
      · cases Dict.get? item e.1 with
        | none => simp
        | some w =>
          simp only
          split
          · simp
          · split
            · exact ih h
            · simp
  unfold matchNode
  split
  · simp
  · rw [hv]
    simp only
    unfold matchNodeAttrs
    cases hm : matchNodeLoop rx attrs item with
    | error e => simp
    | ok b =>
      cases b with
      | true => exact absurd hm (key attrs (Dict.mem_of_get? ha))
      | false => simp

/-- **C118 is false**: whenever a default is declared for an attribute of edges, no node of any pattern of the file matches
any word (words do not have the attributes of relations), and an edge without a condition of its own has none. -/
theorem C118_false (rx : String → String → Bool) {lib : GraphmlLib} {keys : List (String × String × Option String)}
    {doc : List Str} {p : Pattern} (h : graphmlPattern lib (defaultsOf keys) doc = .ok p) {rel d : String}
    (hr : (rel, "edge", some d) ∈ keys) (item : Attrs) (hi : Dict.get? item rel = none) :
    (∀ v ∈ Dict.keys p.graph.nodes, matchNode rx p.graph item v ≠ .ok true) ∧
      ∀ g : Graph, lib.parse doc = .ok g → ∀ e attrs, Dict.get? g.edges e = some attrs → Dict.get? attrs rel = none →
        ∃ attrs', Dict.get? p.graph.edges e = some attrs' ∧ Dict.get? attrs' rel = none := by
  obtain ⟨g, h1, h2, h3, h4⟩ := C118_exact h
  constructor
  · intro v hv
    rw [h3] at hv
    cases hg : Dict.get? g.nodes v with
    | none => exact absurd hv ((Dict.get?_eq_none_iff _ _).1 hg)
    | some attrs =>
      obtain ⟨attrs', h5, h6⟩ := h4 v attrs hg
      have hsome : (lastDefault keys rel).isSome = true := by
        unfold lastDefault
        cases hf : keys.reverse.find? (fun k => decide (k.1 = rel) && k.2.2.isSome) with
        | none =>
          rw [List.find?_eq_none] at hf
          exact absurd (hf (rel, "edge", some d) (List.mem_reverse.2 hr)) (by simp)
        | some k =>
          have := List.find?_some hf
          simp only [Bool.and_eq_true] at this
          exact this.2
      have h7 := h6 rel
      cases ho : Dict.get? attrs rel with
      | some r => rw [ho] at h7; exact matchNode_missing rx h5 h7 hi
      | none =>
        rw [ho] at h7
        cases hl : lastDefault keys rel with
        | none => rw [hl] at hsome; cases hsome
        | some r => rw [hl] at h7; exact matchNode_missing rx h5 h7 hi
  · intro g' hg' e attrs he ha
    rw [h1] at hg'
    injection hg' with hg'
    subst hg'
    exact ⟨attrs, by rw [h2]; exact he, ha⟩

/-! ### Concrete cases -/

/-- A reader for the samples: two nodes and an edge, the number of the graph is the number of lines. -/
def sampleLib (keys : List (String × String × Option String)) : GraphmlLib where
  keys := fun _ => .ok keys
  parse := fun _ => .ok ⟨[(1, [("pos", "V")]), (2, [])], [((1, 2), [])]⟩
  graphId := fun l => .ok l.length

/-- C117: a file with a head, two graphs, a blank line between them, and an end. -/
example : readGraphml (sampleLib [("lemma", "node", some "(.+)"), ("pos", "node", some "N"), ("deprel", "edge", none)])
      (["<graphml>", " <graph id='1'>", "  <node/>", " </graph>", "", " <graph id='2'>", " </graph>", "</graphml>"].map String.toList) =
    .ok [⟨⟨[(1, [("pos", "V"), ("lemma", "(.+)")]), (2, [("lemma", "(.+)"), ("pos", "N")])], [((1, 2), [])]⟩, some 5, none, false⟩,
      ⟨⟨[(1, [("pos", "V"), ("lemma", "(.+)")]), (2, [("lemma", "(.+)"), ("pos", "N")])], [((1, 2), [])]⟩, some 5, none, false⟩] := by
  decide +kernel

/-- The same file in one line: no patterns. -/
example : readGraphml (sampleLib [("lemma", "node", some "(.+)")])
    ["<graphml><graph id='1'><node/></graph></graphml>".toList] = .ok [] := by decide +kernel

/-- Without the closing tag at the beginning of a line: `TypeError`. -/
example : readGraphml (sampleLib []) (["<graphml>", "<graph>", "</graph>"].map String.toList) = .error .typeError := by
  decide +kernel

/-- C118: the default for relations becomes a condition on words. -/
example : graphmlPattern (sampleLib []) (defaultsOf [("deprel", "edge", some "obj")]) [] =
    .ok ⟨⟨[(1, [("pos", "V"), ("deprel", "obj")]), (2, [("deprel", "obj")])], [((1, 2), [])]⟩, some 0, none, false⟩ := by
  decide +kernel

end Verif.Dep
