import Verif.Dep.RawGraph
import Verif.Dep.PropsPattern
import Verif.Vocab.PlainLemmas

/-!
# C128, C129: undirected sentence graphs and the older matchers
-/

namespace Verif.Dep
open Verif.Py Verif.Vocab.Plain
set_option linter.unusedSectionVars false

/-! ### Specification -/

/-- A word of a sentence with its dependency. -/
structure Word6 where
  form : Str
  pos : Str
  lem : Str
  idx : Int
  head : Int
  rel : Str

/-- The line of a word: six fields with tabs between them. -/
def Word6.text (w : Word6) : Str :=
  w.form ++ '\t' :: (w.pos ++ '\t' :: (w.lem ++ '\t' :: (intStr w.idx ++ '\t' :: (intStr w.head ++ '\t' :: w.rel))))

/-- No field contains a tab; the line does not begin or end with white space. -/
structure Word6.Clean (w : Word6) : Prop where
  form : '\t' ∉ w.form
  pos : '\t' ∉ w.pos
  lem : '\t' ∉ w.lem
  rel : '\t' ∉ w.rel
  trimmed : Trimmed w.text

/-- The lines of a sentence: lines of words (white space around them does not matter), between them lines without exactly
five tabs. -/
inductive Written : List Str → List Word6 → Prop
  | nil : Written [] []
  | word {w : Word6} {p q ls ws} : w.Clean → Blank p → Blank q → Written ls ws → Written ((p ++ w.text ++ q) :: ls) (w :: ws)
  | skip {core : Str} {p q ls ws} : (core = [] ∨ Trimmed core) → core.count '\t' ≠ 5 → Blank p → Blank q → Written ls ws →
      Written ((p ++ core ++ q) :: ls) ws

/-- The node that stands for a word: lemma, slash, part of speech. -/
def Word6.name (w : Word6) : Str := w.lem ++ '/' :: w.pos

/-- `x` is the node of the head of `w`. -/
def HeadIs (ws : List Word6) (w : Word6) (x : Str) : Prop :=
  (w.head = 0 ∧ x = "root".toList) ∨ ∃ w' ∈ ws, w'.idx = w.head ∧ x = w'.name

/-- Each word has its own number, which is not 0. -/
def Numbered (ws : List Word6) : Prop := (ws.map Word6.idx).Nodup ∧ ∀ w ∈ ws, w.idx ≠ 0

/-- The word joins the two nodes, in either direction. -/
def Joins (hn : Word6 → Str) (u v : Str) (w : Word6) : Bool :=
  decide ((w.name = u ∧ hn w = v) ∨ (w.name = v ∧ hn w = u))

/-! ### Lemmas -/

theorem splitTab_length (s : Str) : (splitTab s).length = s.count '\t' + 1 := by
  induction s with
  | nil => rfl
  | cons c s ih =>
    rw [splitTab]
    by_cases h : c = '\t'
    · subst h; simp [ih]
    · rw [if_neg h]
      have hc : (c :: s).count '\t' = s.count '\t' := by
        rw [List.count_cons_of_ne]
        exact h
      rw [hc, ← ih]
      cases hs : splitTab s with
      | nil => exact absurd hs (splitTab_ne_nil s)
      | cons p ps => simp

theorem intStr_noTab (n : Int) : '\t' ∉ intStr n := fun hc => ((intStr_chars n).2 _ hc).2.2 rfl

theorem splitTab_text {w : Word6} (h : w.Clean) :
    splitTab w.text = [w.form, w.pos, w.lem, intStr w.idx, intStr w.head, w.rel] := by
  unfold Word6.text
  rw [splitTab_append _ _ h.form, splitTab_append _ _ h.pos, splitTab_append _ _ h.lem,
    splitTab_append _ _ (intStr_noTab _), splitTab_append _ _ (intStr_noTab _), splitTab_noTab _ h.rel]

/-- What the reader makes of a word. -/
def Word6.raw (w : Word6) : RawWord := { name := w.name, idx := w.idx, head := w.head, rel := w.rel }

theorem rawLine_word {w : Word6} (h : w.Clean) {p q : Str} (hp : Blank p) (hq : Blank q) :
    rawLine (p ++ w.text ++ q) = .ok (some w.raw) := by
  unfold rawLine
  rw [strip_pad hp hq h.trimmed, splitTab_text h]
  simp only [parseInt_intStr]
  rfl

theorem strip_blank {p q : Str} (hp : Blank p) (hq : Blank q) : strip (p ++ q) = [] := by
  unfold strip
  have h : (p ++ q).dropWhile isSpace = [] := by
    rw [List.dropWhile_eq_nil_iff]
    intro c hc
    rcases List.mem_append.1 hc with h | h
    · exact hp c h
    · exact hq c h
  rw [h]
  rfl

theorem rawLine_skip {core p q : Str} (hc : core = [] ∨ Trimmed core) (hn : core.count '\t' ≠ 5) (hp : Blank p)
    (hq : Blank q) : rawLine (p ++ core ++ q) = .ok none := by
  have hs : strip (p ++ core ++ q) = core := by
    rcases hc with rfl | h
    · rw [List.append_nil]; exact strip_blank hp hq
    · exact strip_pad hp hq h
  have hl : (splitTab core).length ≠ 6 := by rw [splitTab_length]; omega
  unfold rawLine
  rw [hs]
  split
  · next h => rw [h] at hl; exact absurd rfl hl
  · rfl

theorem written_raw {ls : List Str} {ws : List Word6} (h : Written ls ws) :
    ∃ os, ls.mapM rawLine = .ok os ∧ os.filterMap id = ws.map Word6.raw := by
  induction h with
  | nil => exact ⟨[], rfl, rfl⟩
  | @word w p q ls ws hw hp hq _ ih =>
    obtain ⟨os, h1, h2⟩ := ih
    refine ⟨some w.raw :: os, ?_, ?_⟩
    · rw [List.mapM_cons, rawLine_word hw hp hq, h1]; rfl
    · rw [List.filterMap_cons_some (f := id) (b := w.raw) rfl, h2, List.map_cons]
  | skip hc hn hp hq _ ih =>
    obtain ⟨os, h1, h2⟩ := ih
    refine ⟨none :: os, ?_, ?_⟩
    · rw [List.mapM_cons, rawLine_skip hc hn hp hq, h1]; rfl
    · rw [List.filterMap_cons_none rfl, h2]

theorem rawIds_go (ws : List RawWord) (d : Dict Int Str) (hnd : (ws.map RawWord.idx).Nodup) (i : Int) :
    ((∀ w ∈ ws, w.idx ≠ i) → (ws.foldl (fun d w => d.set w.idx w.name) d).get? i = d.get? i) ∧
    (∀ w ∈ ws, w.idx = i → (ws.foldl (fun d w => d.set w.idx w.name) d).get? i = some w.name) := by
  induction ws generalizing d with
  | nil => exact ⟨fun _ => rfl, fun w hw => (nomatch hw)⟩
  | cons w ws ih =>
    simp only [List.map_cons, List.nodup_cons] at hnd
    obtain ⟨h1, h2⟩ := ih (d.set w.idx w.name) hnd.2
    constructor
    · intro h
      rw [List.foldl_cons, h1 (fun x hx => h x (by simp [hx])), Dict.get?_set, if_neg (h w (by simp))]
    · intro x hx hi
      rw [List.foldl_cons]
      rcases List.mem_cons.1 hx with rfl | hx
      · rw [h1 ?_, Dict.get?_set, if_pos hi]
        intro y hy hyi
        exact hnd.1 (List.mem_map.2 ⟨y, hy, by rw [hyi, hi]⟩)
      · exact h2 x hx hi

theorem rawIds_spec {ws : List Word6} (hn : Numbered ws) :
    (∀ w ∈ ws, (rawIds (ws.map Word6.raw)).get? w.idx = some w.name) ∧
    (rawIds (ws.map Word6.raw)).get? 0 = some "root".toList ∧
    (∀ i, i ≠ 0 → (∀ w ∈ ws, w.idx ≠ i) → (rawIds (ws.map Word6.raw)).get? i = none) := by
  have hnd : ((ws.map Word6.raw).map RawWord.idx).Nodup := by
    rw [List.map_map]; exact hn.1
  refine ⟨?_, ?_, ?_⟩
  · intro w hw
    exact (rawIds_go (ws.map Word6.raw) _ hnd w.idx).2 w.raw (List.mem_map.2 ⟨w, hw, rfl⟩) rfl
  · refine ((rawIds_go (ws.map Word6.raw) _ hnd 0).1 ?_).trans (by simp [Dict.get?_cons])
    intro x hx
    obtain ⟨w, hw, rfl⟩ := List.mem_map.1 hx
    exact hn.2 w hw
  · intro i hi h
    refine ((rawIds_go (ws.map Word6.raw) _ hnd i).1 ?_).trans (by simp [Dict.get?_cons, Ne.symm hi])
    intro x hx
    obtain ⟨w, hw, rfl⟩ := List.mem_map.1 hx
    exact h w hw

theorem mem_keys_set' (d : Dict (Str × Str) Str) (k : Str × Str) (v : Str) (k' : Str × Str) :
    k' ∈ (d.set k v).keys ↔ k' ∈ d.keys ∨ k' = k := by
  rw [Dict.keys_set]
  split
  · next h => exact ⟨Or.inl, fun h' => h'.elim id (fun e => e ▸ h)⟩
  · simp

/-- No edge is kept in both orders. -/
def UG.OneWay (g : UG) : Prop := ∀ u v, (u, v) ∈ g.edges.keys → (v, u) ∈ g.edges.keys → u = v

theorem mem_addNode (g : UG) (v x : Str) : x ∈ (g.addNode v).nodes ↔ x ∈ g.nodes ∨ x = v := by
  unfold UG.addNode
  split
  · next h => exact ⟨Or.inl, fun h' => h'.elim id (fun e => e ▸ h)⟩
  · simp

theorem nodup_addNode {g : UG} (v : Str) (h : g.nodes.Nodup) : (g.addNode v).nodes.Nodup := by
  unfold UG.addNode
  split
  · exact h
  · next hv =>
    simp only
    rw [List.nodup_append]
    exact ⟨h, by simp, fun a ha b hb => by simp at hb; subst hb; rintro rfl; exact hv ha⟩

theorem keyOf_cases (g : UG) (u v : Str) : g.keyOf u v = (u, v) ∨ g.keyOf u v = (v, u) := by
  unfold UG.keyOf; split <;> simp

theorem oneWay_addEdge {g : UG} (h : g.OneWay) (u v r : Str) : (g.addEdge u v r).OneWay := by
  intro a b h1 h2
  unfold UG.addEdge at h1 h2
  simp only [mem_keys_set'] at h1 h2
  unfold UG.keyOf at h1 h2
  by_cases hk : (v, u) ∈ g.edges.keys
  · rw [if_pos hk] at h1 h2
    rcases h1 with h1 | h1 <;> rcases h2 with h2 | h2
    · exact h a b h1 h2
    · exact h a b h1 (h2 ▸ hk)
    · exact h a b (h1 ▸ hk) h2
    · simp only [Prod.mk.injEq] at h1 h2
      rw [h1.1, ← h2.1]
  · rw [if_neg hk] at h1 h2
    rcases h1 with h1 | h1 <;> rcases h2 with h2 | h2
    · exact h a b h1 h2
    · simp only [Prod.mk.injEq] at h2
      obtain ⟨rfl, rfl⟩ := h2
      exact absurd h1 hk
    · simp only [Prod.mk.injEq] at h1
      obtain ⟨rfl, rfl⟩ := h1
      exact absurd h2 hk
    · simp only [Prod.mk.injEq] at h1 h2
      rw [h1.1, ← h2.1]

theorem rel_addEdge {g : UG} (h : g.OneWay) (a b r u v : Str) :
    (g.addEdge a b r).rel u v = if (a = u ∧ b = v) ∨ (a = v ∧ b = u) then some r else g.rel u v := by
  unfold UG.rel UG.addEdge
  simp only [Dict.get?_set]
  by_cases hj : (a = u ∧ b = v) ∨ (a = v ∧ b = u)
  · rw [if_pos hj]
    by_cases hk : g.keyOf a b = (u, v)
    · rw [if_pos hk]
    · rw [if_neg hk]
      have hk' : g.keyOf a b = (v, u) := by
        rcases keyOf_cases g a b with h1 | h1 <;> rcases hj with ⟨rfl, rfl⟩ | ⟨rfl, rfl⟩
        · exact absurd h1 hk
        · exact h1
        · exact h1
        · exact absurd h1 hk
      rw [if_pos hk']
      have hnone : g.edges.get? (u, v) = none := by
        rw [Dict.get?_eq_none_iff]
        intro hmem
        unfold UG.keyOf at hk'
        by_cases hba : (b, a) ∈ g.edges.keys
        · rw [if_pos hba] at hk'
          obtain ⟨rfl, rfl⟩ := Prod.mk.inj hk'
          have := h _ _ hmem hba
          subst this
          exact hk (by unfold UG.keyOf; rw [if_pos hba])
        · rw [if_neg hba] at hk'
          obtain ⟨rfl, rfl⟩ := Prod.mk.inj hk'
          exact hba hmem
      rw [hnone]
  · rw [if_neg hj]
    have h1 : g.keyOf a b ≠ (u, v) := by
      intro hk
      rcases keyOf_cases g a b with h' | h' <;> rw [h'] at hk <;> obtain ⟨rfl, rfl⟩ := Prod.mk.inj hk
      · exact hj (Or.inl ⟨rfl, rfl⟩)
      · exact hj (Or.inr ⟨rfl, rfl⟩)
    have h2 : g.keyOf a b ≠ (v, u) := by
      intro hk
      rcases keyOf_cases g a b with h' | h' <;> rw [h'] at hk <;> obtain ⟨rfl, rfl⟩ := Prod.mk.inj hk
      · exact hj (Or.inr ⟨rfl, rfl⟩)
      · exact hj (Or.inl ⟨rfl, rfl⟩)
    rw [if_neg h1, if_neg h2]

/-- The loop over the dependencies. -/
theorem addDeps (ids : Dict Int Str) (hn : Word6 → Str) (ws : List Word6)
    (h1 : ∀ w ∈ ws, ids.get? w.idx = some w.name) (h2 : ∀ w ∈ ws, ids.get? w.head = some (hn w)) (g : UG)
    (hg : g.OneWay) (hnd : g.nodes.Nodup) :
    ∃ g', (ws.map Word6.raw).foldlM (addDep ids) g = .ok g' ∧ g'.OneWay ∧ g'.nodes.Nodup ∧
      (∀ x, x ∈ g'.nodes ↔ x ∈ g.nodes ∨ ∃ w ∈ ws, x = w.name ∨ x = hn w) ∧
      (∀ u v, g'.rel u v = match ws.reverse.find? (Joins hn u v) with
        | some w => some w.rel
        | none => g.rel u v) := by
  induction ws generalizing g with
  | nil => exact ⟨g, rfl, hg, hnd, by simp, by simp⟩
  | cons w ws ih =>
    have e1 : addDep ids g w.raw = .ok (g.addEdge w.name (hn w) w.rel) := by
      unfold addDep nodeName
      simp only [Word6.raw, h1 w (by simp), h2 w (by simp), bind, Except.bind]
    obtain ⟨g', a1, a2, a3, a4, a5⟩ := ih (fun x hx => h1 x (by simp [hx])) (fun x hx => h2 x (by simp [hx]))
      (g.addEdge w.name (hn w) w.rel) (oneWay_addEdge hg _ _ _)
      (nodup_addNode (g := g.addNode w.name) _ (nodup_addNode _ hnd))
    refine ⟨g', ?_, a2, a3, ?_, ?_⟩
    · rw [List.map_cons, List.foldlM_cons, e1]
      exact a1
    · intro x
      rw [a4]
      have : x ∈ (g.addEdge w.name (hn w) w.rel).nodes ↔ (x ∈ g.nodes ∨ x = w.name) ∨ x = hn w := by
        show x ∈ ((g.addNode w.name).addNode (hn w)).nodes ↔ _
        rw [mem_addNode, mem_addNode]
      rw [this]
      simp only [List.mem_cons, exists_eq_or_imp, or_assoc]
    · intro u v
      rw [a5, List.reverse_cons, List.find?_append]
      cases hf : ws.reverse.find? (Joins hn u v) with
      | some y => simp
      | none =>
        simp only [Option.none_or]
        rw [rel_addEdge hg]
        by_cases hj : (w.name = u ∧ hn w = v) ∨ (w.name = v ∧ hn w = u)
        · rw [if_pos hj]
          have : Joins hn u v w = true := by unfold Joins; exact decide_eq_true hj
          simp [this]
        · rw [if_neg hj]
          have : Joins hn u v w = false := by unfold Joins; exact decide_eq_false hj
          simp [this]

theorem addNames (ws : List Word6) (g : UG) (hnd : g.nodes.Nodup) :
    ((ws.map Word6.raw).foldl (fun g w => g.addNode w.name) g).nodes.Nodup ∧
    ((ws.map Word6.raw).foldl (fun g w => g.addNode w.name) g).edges = g.edges ∧
    ∀ x, x ∈ ((ws.map Word6.raw).foldl (fun g w => g.addNode w.name) g).nodes ↔ x ∈ g.nodes ∨ ∃ w ∈ ws, x = w.name := by
  induction ws generalizing g with
  | nil => exact ⟨hnd, rfl, by simp⟩
  | cons w ws ih =>
    obtain ⟨h1, h2, h3⟩ := ih (g.addNode w.name) (nodup_addNode _ hnd)
    refine ⟨h1, ?_, ?_⟩
    · refine h2.trans ?_
      unfold UG.addNode; split <;> rfl
    · intro x
      rw [List.map_cons, List.foldl_cons]
      refine (h3 x).trans ?_
      rw [mem_addNode]
      simp only [List.mem_cons, exists_eq_or_imp, or_assoc]

/-! ### C128 -/

/-- **C128** (what the graph of a sentence is).  For a sentence of lines with six fields (others are skipped) whose words
have their own numbers and heads among them or 0: the nodes are the lemma/part-of-speech names of the words and of their heads,
each once, `root` standing for the head 0; two nodes are joined exactly if some word and its head have these names, in
either direction, and the relation is that of the last such word. -/
theorem C128_partial {ls : List Str} {ws : List Word6} (hw : Written ls ws) (hnum : Numbered ws) {hn : Word6 → Str}
    (hh : ∀ w ∈ ws, HeadIs ws w (hn w)) :
    ∃ g, buildRaw ls = .ok g ∧ g.nodes.Nodup ∧
      (∀ x, x ∈ g.nodes ↔ (∃ w ∈ ws, x = w.name) ∨ (x = "root".toList ∧ ∃ w ∈ ws, w.head = 0)) ∧
      ∀ u v, g.rel u v = (ws.reverse.find? (Joins hn u v)).map Word6.rel := by
  obtain ⟨os, ho1, ho2⟩ := written_raw hw
  obtain ⟨i1, i2, i3⟩ := rawIds_spec hnum
  have hhead : ∀ w ∈ ws, (rawIds (ws.map Word6.raw)).get? w.head = some (hn w) := by
    intro w hmem
    rcases hh w hmem with ⟨h0, hx⟩ | ⟨w', hw', he, hx⟩
    · rw [h0, hx]; exact i2
    · rw [← he, hx]; exact i1 w' hw'
  obtain ⟨n1, n2, n3⟩ := addNames ws { nodes := [], edges := [] } List.nodup_nil
  obtain ⟨g, a1, a2, a3, a4, a5⟩ := addDeps (rawIds (ws.map Word6.raw)) hn ws i1 hhead
    ((ws.map Word6.raw).foldl (fun g w => g.addNode w.name) { nodes := [], edges := [] })
    (by intro u v h; rw [n2] at h; cases h) n1
  refine ⟨g, ?_, a3, ?_, ?_⟩
  · unfold buildRaw
    rw [ho1]
    simp only [bind, Except.bind, ho2]
    exact a1
  · intro x
    rw [a4, n3]
    constructor
    · rintro ((h | h) | ⟨w, hmem, rfl | rfl⟩)
      · cases h
      · exact Or.inl h
      · exact Or.inl ⟨w, hmem, rfl⟩
      · rcases hh w hmem with ⟨h0, hx⟩ | ⟨w', hw', he, hx⟩
        · exact Or.inr ⟨hx, w, hmem, h0⟩
        · exact Or.inl ⟨w', hw', hx⟩
    · rintro (h | ⟨rfl, w, hmem, h0⟩)
      · exact Or.inl (Or.inr h)
      · refine Or.inr ⟨w, hmem, Or.inr ?_⟩
        rcases hh w hmem with ⟨_, hx⟩ | ⟨w', hw', he, _⟩
        · exact hx.symm
        · exact absurd (he.trans h0) (hnum.2 w' hw')
  · intro u v
    rw [a5]
    cases hf : ws.reverse.find? (Joins hn u v) with
    | some w => rfl
    | none =>
      have : UG.rel ((ws.map Word6.raw).foldl (fun (g : UG) w => g.addNode w.name) { nodes := [], edges := [] }) u v = none := by
        unfold UG.rel; rw [n2]; rfl
      rw [this]; rfl

/-- **C128** (when the words have different names).  If moreover no two words have the same name, none is called `root`, and
no two words are each other's heads, then the graph has one node per word (and `root`), and each word is joined to its head by
its own relation. -/
theorem C128_distinct_partial {ls : List Str} {ws : List Word6} (hw : Written ls ws) (hnum : Numbered ws) {hn : Word6 → Str}
    (hh : ∀ w ∈ ws, HeadIs ws w (hn w)) (hd : (ws.map Word6.name).Nodup) (hroot : ∀ w ∈ ws, w.name ≠ "root".toList)
    (hcyc : ∀ w ∈ ws, ∀ w' ∈ ws, w.head = w'.idx → w'.head = w.idx → w = w') :
    ∃ g, buildRaw ls = .ok g ∧
      g.nodes.length = ws.length + (if ∃ w ∈ ws, w.head = 0 then 1 else 0) ∧
      ∀ w ∈ ws, g.rel w.name (hn w) = some w.rel := by
  obtain ⟨g, h1, h2, h3, h4⟩ := C128_partial hw hnum hh
  have hinj : ∀ w ∈ ws, ∀ w' ∈ ws, w.name = w'.name → w = w' := fun w hw' w' hw'' h => List.inj_on_of_nodup_map hd hw' hw'' h
  refine ⟨g, h1, ?_, ?_⟩
  · have hperm : g.nodes.Perm (ws.map Word6.name ++ if ∃ w ∈ ws, w.head = 0 then ["root".toList] else []) := by
      refine (List.perm_ext_iff_of_nodup h2 ?_).2 ?_
      · rw [List.nodup_append]
        refine ⟨hd, by split <;> simp, ?_⟩
        intro a ha b hb
        obtain ⟨w, hw', rfl⟩ := List.mem_map.1 ha
        split at hb
        · simp only [List.mem_singleton] at hb
          rw [hb]; exact hroot w hw'
        · cases hb
      · intro x
        rw [h3, List.mem_append, List.mem_map]
        by_cases h0 : ∃ w ∈ ws, w.head = 0
        · rw [if_pos h0]
          simp only [List.mem_singleton]
          constructor
          · rintro (⟨w, hm, rfl⟩ | ⟨rfl, _⟩)
            · exact Or.inl ⟨w, hm, rfl⟩
            · exact Or.inr rfl
          · rintro (⟨w, hm, rfl⟩ | rfl)
            · exact Or.inl ⟨w, hm, rfl⟩
            · exact Or.inr ⟨rfl, h0⟩
        · rw [if_neg h0]
          constructor
          · rintro (⟨w, hm, rfl⟩ | ⟨rfl, h⟩)
            · exact Or.inl ⟨w, hm, rfl⟩
            · exact absurd h h0
          · rintro (⟨w, hm, rfl⟩ | h)
            · exact Or.inl ⟨w, hm, rfl⟩
            · cases h
    rw [hperm.length_eq, List.length_append, List.length_map]
    split <;> rfl
  · intro w hmem
    rw [h4]
    have key : ∀ x ∈ ws, Joins hn w.name (hn w) x = true → x = w := by
      intro x hx hj
      unfold Joins at hj
      rcases of_decide_eq_true hj with ⟨e1, _⟩ | ⟨e1, e2⟩
      · exact hinj x hx w hmem e1
      · rcases hh w hmem with ⟨_, hx0⟩ | ⟨w', hw', he, hxn⟩
        · exact absurd (e1.trans hx0) (hroot x hx)
        · have hxw : x = w' := hinj x hx w' hw' (e1.trans hxn)
          subst hxw
          rcases hh x hx with ⟨_, hx0⟩ | ⟨w'', hw'', he', hxn'⟩
          · exact absurd (e2.symm.trans hx0) (hroot w hmem)
          · have hww : w'' = w := hinj w'' hw'' w hmem (hxn'.symm.trans e2)
            subst hww
            exact hcyc x hx w'' hmem he'.symm he.symm
    cases hf : ws.reverse.find? (Joins hn w.name (hn w)) with
    | none =>
      rw [List.find?_eq_none] at hf
      have := hf w (List.mem_reverse.2 hmem)
      unfold Joins at this
      simp at this
    | some x =>
      have hx := List.mem_reverse.1 (List.mem_of_find?_eq_some hf)
      have hj := List.find?_some hf
      rw [key x hx hj]
      rfl

/-- **C128** (refusals).  A head that is not the number of a word read is a `KeyError`. -/
theorem C128_unknown_head {ls : List Str} {ws : List Word6} (hw : Written ls ws) (hnum : Numbered ws) {w : Word6}
    (hmem : w ∈ ws) (h0 : w.head ≠ 0) (hno : ∀ w' ∈ ws, w'.idx ≠ w.head) : buildRaw ls = .error .keyError := by
  obtain ⟨os, ho1, ho2⟩ := written_raw hw
  obtain ⟨i1, i2, i3⟩ := rawIds_spec hnum
  unfold buildRaw
  rw [ho1]
  simp only [bind, Except.bind, ho2]
  have key : ∀ (l : List Word6) (g : UG), (∀ x ∈ l, x ∈ ws) → w ∈ l →
      (l.map Word6.raw).foldlM (addDep (rawIds (ws.map Word6.raw))) g = .error .keyError := by
    intro l
    induction l with
    | nil => intro _ _ h; cases h
    | cons x l ih =>
      intro g hl hwl
      rw [List.map_cons, List.foldlM_cons]
      have hx := hl x (by simp)
      have e1 : nodeName (rawIds (ws.map Word6.raw)) x.idx = .ok x.name := by
        unfold nodeName; rw [i1 x hx]
      by_cases hk : ∃ s, (rawIds (ws.map Word6.raw)).get? x.head = some s
      · obtain ⟨s, hs⟩ := hk
        have e2 : nodeName (rawIds (ws.map Word6.raw)) x.head = .ok s := by
          unfold nodeName; rw [hs]
        have : addDep (rawIds (ws.map Word6.raw)) g x.raw = .ok (g.addEdge x.name s x.rel) := by
          unfold addDep
          simp only [Word6.raw, e1, e2, bind, Except.bind]
        rw [this]
        refine ih _ (fun y hy => hl y (by simp [hy])) ?_
        rcases List.mem_cons.1 hwl with rfl | h
        · rw [i3 _ h0 hno] at hs; cases hs
        · exact h
      · have hs : (rawIds (ws.map Word6.raw)).get? x.head = none := by
          cases h : (rawIds (ws.map Word6.raw)).get? x.head with
          | none => rfl
          | some s => exact absurd ⟨s, h⟩ hk
        have e2 : nodeName (rawIds (ws.map Word6.raw)) x.head = .error .keyError := by
          unfold nodeName; rw [hs]
        have : addDep (rawIds (ws.map Word6.raw)) g x.raw = .error .keyError := by
          unfold addDep
          simp only [Word6.raw, e1, e2, bind, Except.bind]
        rw [this]
        rfl
  exact key ws _ (fun _ h => h) hmem

/-- **C128** (refusals).  A line with six fields whose number or head is not an integer is a `ValueError`, whatever
follows. -/
theorem C128_not_a_number {ls : List Str} {ws : List Word6} (hw : Written ls ws) {form pos lem i h rel : Str}
    (hf : '\t' ∉ form) (hp : '\t' ∉ pos) (hl : '\t' ∉ lem) (hi : '\t' ∉ i) (hh : '\t' ∉ h) (hr : '\t' ∉ rel)
    (ht : Trimmed (form ++ '\t' :: (pos ++ '\t' :: (lem ++ '\t' :: (i ++ '\t' :: (h ++ '\t' :: rel))))))
    (hbad : parseInt i = none ∨ parseInt h = none) (rest : List Str) :
    buildRaw (ls ++ (form ++ '\t' :: (pos ++ '\t' :: (lem ++ '\t' :: (i ++ '\t' :: (h ++ '\t' :: rel))))) :: rest) =
      .error .valueError := by
  have hline : rawLine (form ++ '\t' :: (pos ++ '\t' :: (lem ++ '\t' :: (i ++ '\t' :: (h ++ '\t' :: rel))))) =
      .error .valueError := by
    unfold rawLine
    rw [strip_trimmed ht, splitTab_append _ _ hf, splitTab_append _ _ hp, splitTab_append _ _ hl,
      splitTab_append _ _ hi, splitTab_append _ _ hh, splitTab_noTab _ hr]
    simp only
    rcases hbad with hb | hb
    · rw [hb]
    · cases hpi : parseInt i with
      | none => rfl
      | some n => rw [hb]
  obtain ⟨os, ho, _⟩ := written_raw hw
  unfold buildRaw
  rw [List.mapM_append, ho, List.mapM_cons, hline]
  rfl

/-- The words of "the dog sees the cat". -/
def dogCat : List Word6 :=
  [⟨"the".toList, "DT".toList, "the".toList, 1, 2, "det".toList⟩, ⟨"dog".toList, "NN".toList, "dog".toList, 2, 3, "subj".toList⟩,
   ⟨"sees".toList, "VB".toList, "see".toList, 3, 0, "root".toList⟩, ⟨"the".toList, "DT".toList, "the".toList, 4, 5, "det".toList⟩,
   ⟨"cat".toList, "NN".toList, "cat".toList, 5, 3, "obj".toList⟩]

/-- The claim as a user would make it — one node per word — is false: the two articles become one node, which is joined to
both nouns, so that the graph is not a tree any more. -/
theorem C128_counterexample :
    ∃ g, buildRaw (dogCat.map Word6.text) = .ok g ∧ dogCat.length = 5 ∧
      g.nodes = ["the/DT".toList, "dog/NN".toList, "see/VB".toList, "cat/NN".toList, "root".toList] ∧
      g.nbrs "the/DT".toList = ["dog/NN".toList, "cat/NN".toList] := by
  refine ⟨_, rfl, rfl, ?_, ?_⟩ <;> decide +kernel

/-- The names of the heads in `dogCat`. -/
def dogCatHeads (w : Word6) : Str :=
  if w.head = 0 then "root".toList else ((dogCat.find? (fun x => decide (x.idx = w.head))).map Word6.name).getD []

/-- The hypotheses of the theorems are met. -/
example : Written (dogCat.map Word6.text) dogCat ∧ Numbered dogCat ∧ ∀ w ∈ dogCat, HeadIs dogCat w (dogCatHeads w) := by
  have hb : Blank [] := fun _ h => (nomatch h)
  have hclean : ∀ w ∈ dogCat, w.Clean := by
    intro w hw
    simp only [dogCat, List.mem_cons, List.not_mem_nil, or_false] at hw
    rcases hw with rfl | rfl | rfl | rfl | rfl <;>
      exact ⟨by decide, by decide, by decide, by decide, ⟨⟨_, rfl, by decide⟩, ⟨_, rfl, by decide⟩⟩⟩
  refine ⟨?_, ⟨by decide, by decide⟩, ?_⟩
  · have key : ∀ l : List Word6, (∀ w ∈ l, w.Clean) → Written (l.map Word6.text) l := by
      intro l
      induction l with
      | nil => intro _; exact .nil
      | cons w l ih =>
        intro h
        have := Written.word (h w (by simp)) hb hb (ih (fun x hx => h x (by simp [hx])))
        simpa using this
    exact key dogCat hclean
  · intro w hw
    simp only [dogCat, List.mem_cons, List.not_mem_nil, or_false] at hw
    rcases hw with rfl | rfl | rfl | rfl | rfl
    · exact Or.inr ⟨⟨"dog".toList, "NN".toList, "dog".toList, 2, 3, "subj".toList⟩, by simp [dogCat], rfl, by decide +kernel⟩
    · exact Or.inr ⟨⟨"sees".toList, "VB".toList, "see".toList, 3, 0, "root".toList⟩, by simp [dogCat], rfl, by decide +kernel⟩
    · exact Or.inl ⟨rfl, by decide +kernel⟩
    · exact Or.inr ⟨⟨"cat".toList, "NN".toList, "cat".toList, 5, 3, "obj".toList⟩, by simp [dogCat], rfl, by decide +kernel⟩
    · exact Or.inr ⟨⟨"sees".toList, "VB".toList, "see".toList, 3, 0, "root".toList⟩, by simp [dogCat], rfl, by decide +kernel⟩

/-! ### C129 -/

theorem nbrs_of_rel {g : UG} {u v r : Str} (h : g.rel u v = some r) : g.nbrs u ≠ [] := by
  have hex : ∃ e ∈ g.edges, otherNode u e ≠ none := by
    unfold UG.rel at h
    cases h1 : g.edges.get? (u, v) with
    | some x => exact ⟨_, Dict.mem_of_get? h1, by simp [otherNode]⟩
    | none =>
      rw [h1] at h
      refine ⟨_, Dict.mem_of_get? h, ?_⟩
      unfold otherNode
      by_cases hvu : v = u
      · simp [hvu]
      · simp [hvu]
  obtain ⟨e, he, hne⟩ := hex
  cases ho : otherNode u e with
  | none => exact absurd ho hne
  | some y =>
    intro hnil
    have : y ∈ g.nbrs u := List.mem_filterMap.2 ⟨e, he, ho⟩
    rw [hnil] at this
    cases this

/-- Every node of the graph of a sentence has a neighbour. -/
theorem raw_has_nbr {ls : List Str} {ws : List Word6} (hw : Written ls ws) (hnum : Numbered ws) {hn : Word6 → Str}
    (hh : ∀ w ∈ ws, HeadIs ws w (hn w)) {g : UG} (hg : buildRaw ls = .ok g) {x : Str} (hx : x ∈ g.nodes) : g.nbrs x ≠ [] := by
  obtain ⟨g', h1, h2, h3, h4⟩ := C128_partial hw hnum hh
  obtain rfl : g' = g := by rw [hg] at h1; exact (Except.ok.inj h1).symm
  have hjoin : ∀ w ∈ ws, ∀ u v, Joins hn u v w = true → ∃ r, g'.rel u v = some r := by
    intro w hw u v hj
    rw [h4]
    cases hf : ws.reverse.find? (Joins hn u v) with
    | some y => exact ⟨_, rfl⟩
    | none =>
      rw [List.find?_eq_none] at hf
      exact absurd hj (hf w (List.mem_reverse.2 hw))
  rcases (h3 x).1 hx with ⟨w, hmem, rfl⟩ | ⟨rfl, w, hmem, h0⟩
  · obtain ⟨r, hr⟩ := hjoin w hmem w.name (hn w) (by simp [Joins])
    exact nbrs_of_rel hr
  · have hroot : hn w = "root".toList := by
      rcases hh w hmem with ⟨_, h⟩ | ⟨w', hw', he, _⟩
      · exact h
      · exact absurd (he.trans h0) (hnum.2 w' hw')
    obtain ⟨r, hr⟩ := hjoin w hmem "root".toList w.name (by simp [Joins, hroot])
    exact nbrs_of_rel hr

/-- **C129** (`Graph.match`).  On the graph of a sentence, a template with at least one edge never finds a path: the call
fails with `TypeError` if some node matches the first condition and gives the empty list if none does.  A template without
edges gives the nodes that match its first condition.  A `Path` object, which the documentation asks for, fails with
`AttributeError`, and a template without conditions with `IndexError`. -/
theorem C129_graph_partial (rx : String → Str → Bool) {ls : List Str} {ws : List Word6} (hw : Written ls ws)
    (hnum : Numbered ws) {hn : Word6 → Str} (hh : ∀ w ∈ ws, HeadIs ws w (hn w)) {g : UG} (hg : buildRaw ls = .ok g) :
    (∀ r rs e es, (∃ x ∈ g.nodes, rx r x = true) → matchGraph rx g (.template (r :: rs) (e :: es)) = .error .typeError) ∧
    (∀ r rs es, (∀ x ∈ g.nodes, rx r x = false) → matchGraph rx g (.template (r :: rs) es) = .ok []) ∧
    (∀ r rs, matchGraph rx g (.template (r :: rs) []) = .ok ((g.nodes.filter (fun x => rx r x)).map (fun x => [x]))) ∧
    (ws ≠ [] → matchGraph rx g .path = .error .attributeError) ∧
    (ws ≠ [] → ∀ es, matchGraph rx g (.template [] es) = .error .indexError) := by
  have hnb := fun x hx => raw_has_nbr hw hnum hh hg (x := x) hx
  have hnode : ws ≠ [] → ∃ x l, g.nodes = x :: l := by
    intro hne
    obtain ⟨g', h1, _, h3, _⟩ := C128_partial hw hnum hh
    obtain rfl : g' = g := by rw [hg] at h1; exact (Except.ok.inj h1).symm
    cases ws with
    | nil => exact absurd rfl hne
    | cons w ws =>
      have hmem : w.name ∈ g'.nodes := (h3 _).2 (Or.inl ⟨w, by simp, rfl⟩)
      cases hgn : g'.nodes with
      | nil => rw [hgn] at hmem; cases hmem
      | cons x l => exact ⟨x, l, rfl⟩
  refine ⟨?_, ?_, ?_, ?_, ?_⟩
  · intro r rs e es hex
    unfold matchGraph
    have key : ∀ (l : List Str) (acc : List (List Str)), (∀ x ∈ l, x ∈ g.nodes) → (∃ x ∈ l, rx r x = true) →
        l.foldlM (matchAt rx g (.template (r :: rs) (e :: es))) acc = .error .typeError := by
      intro l
      induction l with
      | nil => rintro _ _ ⟨x, hx, _⟩; cases hx
      | cons y l ih =>
        intro acc hl hex
        rw [List.foldlM_cons]
        by_cases hy : rx r y = true
        · have : matchAt rx g (.template (r :: rs) (e :: es)) acc y = .error .typeError := by
            unfold matchAt headMatches
            simp only [hy, bind, Except.bind]
            unfold matchPath
            rw [if_neg (by simp)]
            cases hb : g.nbrs y with
            | nil => exact absurd hb (hnb y (hl y (by simp)))
            | cons a b => rfl
          rw [this]; rfl
        · have hy' : rx r y = false := by simpa using hy
          have : matchAt rx g (.template (r :: rs) (e :: es)) acc y = .ok acc := by
            unfold matchAt headMatches
            simp only [hy', bind, Except.bind]
          rw [this]
          refine ih acc (fun x hx => hl x (by simp [hx])) ?_
          obtain ⟨x, hx, hr⟩ := hex
          rcases List.mem_cons.1 hx with rfl | hx
          · exact absurd hr hy
          · exact ⟨x, hx, hr⟩
    exact key g.nodes [] (fun _ h => h) hex
  · intro r rs es hno
    unfold matchGraph
    have key : ∀ (l : List Str) (acc : List (List Str)), (∀ x ∈ l, rx r x = false) →
        l.foldlM (matchAt rx g (.template (r :: rs) es)) acc = .ok acc := by
      intro l
      induction l with
      | nil => intro _ _; rfl
      | cons y l ih =>
        intro acc hl
        rw [List.foldlM_cons]
        have : matchAt rx g (.template (r :: rs) es) acc y = .ok acc := by
          unfold matchAt headMatches
          simp only [hl y (by simp), bind, Except.bind]
        rw [this]
        exact ih acc (fun x hx => hl x (by simp [hx]))
    exact key g.nodes [] hno
  · intro r rs
    unfold matchGraph
    have key : ∀ (l : List Str) (acc : List (List Str)),
        l.foldlM (matchAt rx g (.template (r :: rs) [])) acc = .ok (acc ++ (l.filter (fun x => rx r x)).map (fun x => [x])) := by
      intro l
      induction l with
      | nil => intro acc; simp [pure, Except.pure]
      | cons y l ih =>
        intro acc
        rw [List.foldlM_cons]
        cases hy : rx r y with
        | true =>
          have : matchAt rx g (.template (r :: rs) []) acc y = .ok (acc ++ [[y]]) := by
            unfold matchAt headMatches matchPath
            simp only [hy, bind, Except.bind, if_true]
          rw [this]
          refine (ih _).trans ?_
          simp [hy]
        | false =>
          have : matchAt rx g (.template (r :: rs) []) acc y = .ok acc := by
            unfold matchAt headMatches
            simp only [hy, bind, Except.bind]
          rw [this]
          refine (ih _).trans ?_
          simp [hy]
    simpa using key g.nodes []
  · intro hne
    obtain ⟨x, l, hx⟩ := hnode hne
    unfold matchGraph
    rw [hx]
    rfl
  · intro hne es
    obtain ⟨x, l, hx⟩ := hnode hne
    unfold matchGraph
    rw [hx]
    rfl

/-- A template that a user expects to match: a determiner next to a noun. -/
theorem C129_graph_counterexample :
    ∃ g, buildRaw (dogCat.map Word6.text) = .ok g ∧ g.rel "the/DT".toList "dog/NN".toList = some "det".toList ∧
      matchGraph (fun r x => decide (r.toList = x)) g (.template ["the/DT", "dog/NN"] ["det"]) = .error .typeError := by
  refine ⟨_, rfl, ?_, ?_⟩
  · decide +kernel
  · decide +kernel

/-- **C129** (`match_target_feature`).  It never records a match: whatever `match_sub_template` would do, the macro comes back
as it was, or the call fails. -/
theorem C129_target_none (sub : Nat → Macro → Macro) (s : Graph) (m : Macro) (target : Option Nat) :
    matchTargetFeature sub s m target = .ok m ∨ ∃ e, matchTargetFeature sub s m target = .error e := by
  unfold matchTargetFeature
  have key : ∀ l : List (Nat × Attrs), l.foldlM (targetStep sub target) m = .ok m ∨
      ∃ e, l.foldlM (targetStep sub target) m = .error e := by
    intro l
    induction l with
    | nil => exact Or.inl rfl
    | cons node l ih =>
      rw [List.foldlM_cons]
      have hstep : targetStep sub target m node = .ok m ∨ ∃ e, targetStep sub target m node = .error e := by
        unfold targetStep labelMatches
        by_cases hl : (node.2.get? "label").getD "ROOT" = ""
        · rw [if_pos hl]; exact Or.inl rfl
        · rw [if_neg hl]
          cases target with
          | none => exact Or.inr ⟨_, rfl⟩
          | some t =>
            cases hp : m.graph.nodes.get? t with
            | none => simp only [hp]; exact Or.inr ⟨_, rfl⟩
            | some at' =>
              cases at' with
              | nil => simp only [hp]; exact Or.inl rfl
              | cons a b => simp only [hp]; exact Or.inr ⟨_, rfl⟩
      rcases hstep with h | ⟨e, h⟩
      · rw [h]; exact ih
      · rw [h]; exact Or.inr ⟨e, rfl⟩
  exact key s.nodes

/-- **C129** (`match_target_feature`, the usual case).  For a sentence with at least one node, read as the corpus reader does
(no attribute `label`), it fails: with `KeyError` if `set_target` was not called, and with `TypeError` if the target node of the
pattern has conditions. -/
theorem C129_target_fails (sub : Nat → Macro → Macro) (s : Graph) (m : Macro) (hne : s.nodes ≠ [])
    (hlab : ∀ v ∈ s.nodes, v.2.get? "label" = none) :
    matchTargetFeature sub s m none = .error .keyError ∧
    ∀ t pat, m.graph.nodes.get? t = some pat → pat ≠ [] → matchTargetFeature sub s m (some t) = .error .typeError := by
  unfold matchTargetFeature
  cases hs : s.nodes with
  | nil => exact absurd hs hne
  | cons v l =>
    have hv := hlab v (by rw [hs]; simp)
    constructor
    · rw [List.foldlM_cons]
      have : targetStep sub none m v = .error .keyError := by
        unfold targetStep labelMatches
        rw [hv]
        rfl
      rw [this]; rfl
    · intro t pat hp hpat
      rw [List.foldlM_cons]
      have : targetStep sub (some t) m v = .error .typeError := by
        unfold targetStep labelMatches
        rw [hv]
        cases pat with
        | nil => exact absurd rfl hpat
        | cons a b =>
          rw [if_neg (by decide)]
          simp only [hp]
          rfl
      rw [this]; rfl

/-- The hypotheses of `C129_target_fails` are met by a sentence and a macro whose pattern `treeMatch` finds there. -/
example : ∃ (s : Graph) (m : Macro), s.nodes ≠ [] ∧ (∀ v ∈ s.nodes, v.2.get? "label" = none) ∧
    m.graph.nodes.get? 1 = some [("lemma", "dog")] ∧
    matchTargetFeature (fun _ m => m) s m (some 1) = .error .typeError := by
  refine ⟨{ nodes := [(1, [("lemma", "dog")]), (2, [("lemma", "see")])], edges := [((2, 1), [("deprel", "subj")])] },
    { graph := { nodes := [(1, [("lemma", "dog")])], edges := [] }, targetIdx := 1, featureIdx := none, targetAttrs := [],
      featNodeAttrs := [], featEdgeAttrs := [], filter := none, connector := "/", depth := 1, found := [] },
    by simp, by decide +kernel, by decide +kernel, ?_⟩
  refine (C129_target_fails _ _ _ (by simp) (by decide +kernel)).2 1 [("lemma", "dog")] (by decide +kernel) (by simp)

end Verif.Dep
