import Verif.Dep.PropsMacros
import Verif.Dep.PropsGraph
import Verif.Dep.MatchLemmas

/-!
# C120 and C121: conditions given as strings, tables of patterns
-/

set_option linter.unusedSectionVars false

namespace Verif.Dep
open Verif.Py Verif.Vocab.Plain

/-! ### Specification -/

/-- `(?P<`, name, `>` as it stands in an expression, without the parenthesis. -/
def tagOf (name : Str) : Str := '?' :: 'P' :: '<' :: name ++ ['>']

/-- A condition with a named group: the expression `clean` with the name put in somewhere. -/
structure NamedCond (name reg clean : Str) : Prop where
  split : ∃ pre post, reg = pre ++ tagOf name ++ post ∧ clean = pre ++ post ∧ ¬ ['?', 'P', '<'] <:+: pre ∧ '>' ∉ pre ∧
    ¬ tagOf name <:+: post
  name : '>' ∉ name

/-- A string that says one or two conditions. -/
inductive Says : Str → Attrs → Prop
  | one {n r c} : NamedCond n r c → '/' ∉ r → Says r [(String.ofList n, String.ofList c)]
  | two {n₁ r₁ c₁ n₂ r₂ c₂} : NamedCond n₁ r₁ c₁ → '/' ∉ r₁ → NamedCond n₂ r₂ c₂ → '/' ∉ r₂ → n₁ ≠ n₂ →
      Says (r₁ ++ '/' :: r₂) [(String.ofList n₁, String.ofList c₁), (String.ofList n₂, String.ofList c₂)]

/-! ### Finding and erasing -/

theorem findSub_cons (p : Str) (c : Char) (s : Str) (h : p.isPrefixOf (c :: s) = false) :
    findSub p (c :: s) = (findSub p s).map (· + 1) := by
  unfold findSub
  rw [List.length_cons, List.range_succ_eq_map, List.find?_cons]
  simp only [List.drop_zero, h]
  rw [List.find?_map]
  rfl

theorem findSub_prefix (p s : Str) (h : p <+: s) : findSub p s = some 0 := by
  unfold findSub
  rw [List.range_succ_eq_map, List.find?_cons]
  simp only [List.drop_zero, List.isPrefixOf_iff_prefix.2 h]

theorem findSub_after {p : Str} (pre s : Str) (hp : p <+: s)
    (h : ∀ a b, pre = a ++ b → b ≠ [] → ¬ p <+: b ++ s) : findSub p (pre ++ s) = some pre.length := by
  induction pre with
  | nil => exact findSub_prefix p s hp
  | cons c pre ih =>
    have hc : p.isPrefixOf (c :: (pre ++ s)) = false := by
      cases hx : p.isPrefixOf (c :: (pre ++ s)) with
      | false => rfl
      | true => exact absurd (List.isPrefixOf_iff_prefix.1 hx) (h [] (c :: pre) rfl (by simp))
    rw [List.cons_append, findSub_cons p c _ hc, ih (fun a b hab hb => h (c :: a) b (by rw [hab]; rfl) hb)]
    rfl

theorem findSub_none {p s : Str} (h : ¬ p <:+: s) : findSub p s = none := by
  unfold findSub
  rw [List.find?_eq_none]
  intro i _ hi
  exact h ((List.isPrefixOf_iff_prefix.1 hi).isInfix.trans (List.drop_suffix i s).isInfix)

/-- Where a tag begins in a string before the first tag. -/
theorem no_tag_before {pre b s : Str} (hpre : ¬ ['?', 'P', '<'] <:+: pre) {a : Str} (hab : pre = a ++ b) (hb : b ≠ []) :
    ¬ ['?', 'P', '<'] <+: b ++ '?' :: 'P' :: '<' :: s := by
  intro h
  match b, hb with
  | [x], _ => simp at h
  | [x, y], _ => simp at h
  | x :: y :: z :: b, _ =>
    apply hpre
    obtain ⟨t, ht⟩ := h
    simp at ht
    obtain ⟨rfl, rfl, rfl, -⟩ := ht
    exact ⟨a, b, by rw [hab]; simp⟩

theorem indexOf_some {p s : Str} {i : Nat} (h : findSub p s = some i) : indexOf p s = .ok i := by
  unfold indexOf; rw [h]

theorem eraseGo_none {p : Str} (s : Str) (h : ¬ p <:+: s) (n : Nat) (hn : s.length < n) : eraseGo p n s = s := by
  induction s generalizing n with
  | nil => cases n <;> rfl
  | cons c s ih =>
    cases n with
    | zero => omega
    | succ n =>
      have hc : p.isPrefixOf (c :: s) = false := by
        cases hx : p.isPrefixOf (c :: s) with
        | false => rfl
        | true => exact absurd (List.isPrefixOf_iff_prefix.1 hx).isInfix h
      rw [eraseGo, hc]
      simp only [Bool.false_eq_true, if_false]
      rw [ih (fun hi => h (hi.trans (List.suffix_cons c s).isInfix)) n (by simp at hn; omega)]

theorem eraseGo_after {p : Str} (hne : p ≠ []) (pre post : Str) (h : ∀ a b, pre = a ++ b → b ≠ [] → ¬ p <+: b ++ (p ++ post))
    (hpost : ¬ p <:+: post) (n : Nat) (hn : (pre ++ p ++ post).length < n) : eraseGo p n (pre ++ (p ++ post)) = pre ++ post := by
  induction pre generalizing n with
  | nil =>
    cases p with
    | nil => exact absurd rfl hne
    | cons c p =>
      cases n with
      | zero => omega
      | succ n =>
        have hc : (c :: p).isPrefixOf (c :: (p ++ post)) = true := List.isPrefixOf_iff_prefix.2 ⟨post, rfl⟩
        rw [List.nil_append, List.cons_append, eraseGo, hc]
        simp only [if_true]
        have : (c :: (p ++ post)).drop (c :: p).length = post := by simp
        rw [this, eraseGo_none post hpost n (by simp at hn; omega)]
        rfl
  | cons c pre ih =>
    cases n with
    | zero => omega
    | succ n =>
      have hc : p.isPrefixOf (c :: (pre ++ (p ++ post))) = false := by
        cases hx : p.isPrefixOf (c :: (pre ++ (p ++ post))) with
        | false => rfl
        | true => exact absurd (List.isPrefixOf_iff_prefix.1 hx) (h [] (c :: pre) rfl (by simp))
      rw [List.cons_append, eraseGo, hc]
      simp only [Bool.false_eq_true, if_false]
      rw [ih (fun a b hab hb => h (c :: a) b (by rw [hab]; rfl) hb) n (by simp at hn ⊢; omega)]
      rfl

theorem namedPart_spec {name reg clean : Str} (h : NamedCond name reg clean) :
    namedPart reg = .ok (String.ofList name, String.ofList clean) := by
  obtain ⟨⟨pre, post, rfl, rfl, h1, h2, h3⟩, h4⟩ := h
  have e1 : pre ++ tagOf name ++ post = pre ++ '?' :: 'P' :: '<' :: (name ++ ['>'] ++ post) := by simp [tagOf]
  have hs : findSub ['?', 'P', '<'] (pre ++ tagOf name ++ post) = some pre.length := by
    rw [e1]
    exact findSub_after pre _ ⟨_, rfl⟩ (fun a b hab hb => no_tag_before h1 hab hb)
  have e2 : pre ++ tagOf name ++ post = (pre ++ '?' :: 'P' :: '<' :: name) ++ '>' :: post := by simp [tagOf]
  have he : findSub ['>'] (pre ++ tagOf name ++ post) = some (pre.length + 3 + name.length) := by
    rw [e2, findSub_after (p := ['>']) (pre ++ '?' :: 'P' :: '<' :: name) ('>' :: post) ⟨post, rfl⟩]
    · simp; omega
    · intro a b hab hb hp
      cases b with
      | nil => exact hb rfl
      | cons c b =>
        simp at hp
        subst hp
        have : '>' ∈ pre ++ '?' :: 'P' :: '<' :: name := by rw [hab]; simp
        simp [h2, h4] at this
  have ht1 : ((pre ++ tagOf name ++ post).take (pre.length + 3 + name.length)).drop (pre.length + 3) = name := by
    have : pre ++ tagOf name ++ post = (pre ++ ['?', 'P', '<']) ++ (name ++ ('>' :: post)) := by simp [tagOf]
    rw [this, List.drop_take]
    have hl : pre.length + 3 = (pre ++ ['?', 'P', '<']).length := by simp
    rw [hl, List.drop_left, show (pre ++ ['?', 'P', '<']).length + name.length - (pre ++ ['?', 'P', '<']).length = name.length by omega,
      List.take_left]
  have ht2 : ((pre ++ tagOf name ++ post).take (pre.length + 3 + name.length + 1)).drop pre.length = tagOf name := by
    rw [List.append_assoc, List.drop_take, List.drop_left]
    have : pre.length + 3 + name.length + 1 - pre.length = (tagOf name).length := by simp [tagOf]; omega
    rw [this, List.take_left]
  have hne : tagOf name ≠ [] := by simp [tagOf]
  have her : eraseAll (tagOf name) (pre ++ tagOf name ++ post) = pre ++ post := by
    unfold eraseAll
    rw [if_neg hne, List.append_assoc]
    refine eraseGo_after hne pre post ?_ h3 _ (by simp)
    intro a b hab hb hp
    have e3 : tagOf name ++ post = '?' :: 'P' :: '<' :: (name ++ ['>'] ++ post) := by simp [tagOf]
    rw [e3] at hp
    exact no_tag_before h1 hab hb (List.IsPrefix.trans ⟨name ++ ['>'], rfl⟩ hp)
  simp only [namedPart, indexOf_some hs, indexOf_some he, ok_bind, ht1, ht2, her]

theorem rsplit_none {s : Str} (h : '/' ∉ s) : rsplitSlash s = [s] := by
  unfold rsplitSlash; rw [if_neg h]

theorem rsplit_last (r : Str) {s : Str} (h : '/' ∉ s) : rsplitSlash (r ++ '/' :: s) = [r, s] := by
  unfold rsplitSlash
  rw [if_pos (by simp)]
  have e : (r ++ '/' :: s).reverse = s.reverse ++ '/' :: r.reverse := by simp
  have hs : ∀ c ∈ s.reverse, (decide (c ≠ '/')) = true := by
    intro c hc
    simp only [decide_eq_true_eq]
    rintro rfl
    exact h (List.mem_reverse.1 hc)
  rw [e, List.dropWhile_append_of_pos hs, List.takeWhile_append_of_pos hs]
  simp

theorem strAttrs_spec {s : Str} {a : Attrs} (h : Says s a) : strAttrs s = .ok a := by
  cases h with
  | one h hs =>
    simp only [strAttrs, rsplit_none hs, List.mapM_cons, List.mapM_nil, namedPart_spec h, ok_bind]
    rfl
  | @two n₁ r₁ c₁ n₂ r₂ c₂ h₁ _ h₂ hs hne =>
    simp only [strAttrs, rsplit_last _ hs, List.mapM_cons, List.mapM_nil, namedPart_spec h₁, namedPart_spec h₂, ok_bind]
    show Except.ok (Dict.ofPairs _) = _
    rw [ofPairs_nodup]
    · simp only [List.map_cons, List.map_nil, List.nodup_cons, List.mem_singleton]
      refine ⟨fun hc => hne ?_, by simp⟩
      have := congrArg String.toList hc
      simpa [String.toList_ofList] using this

theorem Says.wf {s : Str} {a : Attrs} (h : Says s a) : Dict.WF a := by
  cases h with
  | one h hs => simp [Dict.WF, Dict.keys]
  | two h₁ _ h₂ hs hne =>
    simp only [Dict.WF, Dict.keys, List.map_cons, List.map_nil, List.nodup_cons, List.mem_singleton]
    refine ⟨fun hc => hne ?_, by simp⟩
    have := congrArg String.toList hc
    simpa [String.toList_ofList] using this

/-! ### C120 -/

theorem touch_id {d : Dict Nat Attrs} {v : Nat} (h : v ∈ Dict.keys d) : touch d v = d := by unfold touch; rw [if_pos h]

theorem touchEnds_id (d : Dict Nat Attrs) (l : List (Nat × Nat)) (h : ∀ e ∈ l, e.1 ∈ Dict.keys d ∧ e.2 ∈ Dict.keys d) :
    touchEnds d l = d := by
  unfold touchEnds
  induction l with
  | nil => rfl
  | cons e l ih =>
    rw [List.foldl_cons, touch_id (h e (by simp)).1, touch_id (h e (by simp)).2]
    exact ih (fun e he => h e (by simp [he]))

/-- A condition as it can be given: a string, or the dict itself. -/
inductive Given : Cond → Attrs → Prop
  | str {s a} : Says s a → Given (.str s) a
  | attrs {a} : Dict.WF a → Given (.attrs a) a

theorem Given.condAttrs {c : Cond} {a : Attrs} (h : Given c a) : condAttrs c = .ok a := by
  cases h with
  | str h => exact strAttrs_spec h
  | attrs h => rfl

theorem Given.wf {c : Cond} {a : Attrs} (h : Given c a) : Dict.WF a := by
  cases h with
  | str h => exact h.wf
  | attrs h => exact h

theorem mapM_conds {κ : Type} (l : List (κ × Cond × Attrs)) (h : ∀ e ∈ l, Given e.2.1 e.2.2) :
    (l.map (fun e : κ × Cond × Attrs => (e.1, e.2.1))).mapM (fun e : κ × Cond => do
      let a ← condAttrs e.2
      Except.ok (ε := Err) (e.1, a)) = .ok (l.map (fun e => (e.1, e.2.2))) := by
  induction l with
  | nil => rfl
  | cons e l ih =>
    have h1 : condAttrs e.2.1 = .ok e.2.2 := (h e (by simp)).condAttrs
    have ih' := ih (fun e he => h e (by simp [he]))
    simp only [List.map_cons, List.mapM_cons, h1, ok_bind, ih']
    rfl

/-- **C120** as far as it holds: strings with one condition, or with two joined by `/`, each with its name, are taken
apart into attributes and expressions, dicts are taken as they are, and the pattern has exactly these nodes, edges and conditions. -/
theorem C120_partial (nodes : List (Nat × Cond × Attrs)) (edges : List ((Nat × Nat) × Cond × Attrs))
    (hn : (nodes.map Prod.fst).Nodup) (he : (edges.map Prod.fst).Nodup) (hns : ∀ e ∈ nodes, Given e.2.1 e.2.2)
    (hes : ∀ e ∈ edges, Given e.2.1 e.2.2 ∧ "id" ∉ Dict.keys e.2.2)
    (hends : ∀ e ∈ edges, e.1.1 ∈ nodes.map Prod.fst ∧ e.1.2 ∈ nodes.map Prod.fst)
    (g : Graph) (hg : g = ⟨nodes.map (fun e => (e.1, e.2.2)), edges.map (fun e => (e.1, e.2.2))⟩) :
    (∀ p, newPattern (nodes.map (fun e => (e.1, e.2.1))) (edges.map (fun e => (e.1, e.2.1))) = .ok p → p.graph = g) ∧
      ∀ b, isLinear g = .ok b →
        newPattern (nodes.map (fun e => (e.1, e.2.1))) (edges.map (fun e => (e.1, e.2.1))) = .ok ⟨g, none, none, !b⟩ := by
  have hkn : Dict.keys (nodes.map (fun e : Nat × Cond × Attrs => (e.1, e.2.2))) = nodes.map Prod.fst := by
    unfold Dict.keys; rw [List.map_map]; rfl
  have hke : Dict.keys (edges.map (fun e : (Nat × Nat) × Cond × Attrs => (e.1, e.2.2))) = edges.map Prod.fst := by
    unfold Dict.keys; rw [List.map_map]; rfl
  have hadd := addNodes_eq (nodes.map (fun e : Nat × Cond × Attrs => (e.1, e.2.2))) (by
    intro e he
    obtain ⟨x, hx, rfl⟩ := List.mem_map.1 he
    exact (hns x hx).wf) ⟨[], []⟩ (by rw [hkn]; simpa using hn)
  have hed := addEdges_eq (edges.map (fun e : (Nat × Nat) × Cond × Attrs => (e.1, e.2.2))) (by
    intro e he
    obtain ⟨x, hx, rfl⟩ := List.mem_map.1 he
    exact ⟨(hes x hx).1.wf, (hes x hx).2⟩) ⟨nodes.map (fun e : Nat × Cond × Attrs => (e.1, e.2.2)), []⟩ (by rw [hke]; simpa using he)
  have hG : condGraph (nodes.map (fun e => (e.1, e.2.1))) (edges.map (fun e => (e.1, e.2.1))) = .ok g := by
    unfold condGraph
    rw [mapM_conds nodes hns, mapM_conds edges (fun e he => (hes e he).1)]
    simp only [ok_bind]
    rw [hadd]
    simp only [List.nil_append]
    rw [hed, hke, touchEnds_id, hg]
    · rfl
    · intro e he
      obtain ⟨x, hx, rfl⟩ := List.mem_map.1 he
      rw [hkn]
      exact hends x hx
  constructor
  · intro p hp
    simp only [newPattern, hG, ok_bind] at hp
    exact finishPattern_graph hp
  · intro b hb
    simp only [newPattern, hG, ok_bind, finishPattern, hb]

/-- **C120 is false for three conditions** in one string, although each has its name: the second one is lost. -/
theorem C120_false_three {n₁ r₁ c₁ n₂ r₂ n₃ r₃ c₃ : Str} (h₁ : NamedCond n₁ (r₁ ++ '/' :: r₂) c₁) (h₃ : NamedCond n₃ r₃ c₃)
    (hs : '/' ∉ r₃) (h12 : n₂ ≠ n₁) (h23 : n₂ ≠ n₃) :
    ∃ a, strAttrs (r₁ ++ '/' :: (r₂ ++ '/' :: r₃)) = .ok a ∧ Dict.get? a (String.ofList n₂) = none := by
  have e : r₁ ++ '/' :: (r₂ ++ '/' :: r₃) = (r₁ ++ '/' :: r₂) ++ '/' :: r₃ := by simp
  refine ⟨Dict.ofPairs [(String.ofList n₁, String.ofList c₁), (String.ofList n₃, String.ofList c₃)], ?_, ?_⟩
  · rw [e]
    simp only [strAttrs, rsplit_last _ hs, List.mapM_cons, List.mapM_nil, namedPart_spec h₁, namedPart_spec h₃, ok_bind]
    rfl
  · have inj : ∀ a b : Str, a ≠ b → String.ofList b ≠ String.ofList a := by
      intro a b h hc
      apply h
      have := congrArg String.toList hc
      simpa [String.toList_ofList] using this.symm
    show Dict.get? (Dict.set (Dict.set [] (String.ofList n₁) (String.ofList c₁)) (String.ofList n₃) (String.ofList c₃)) _ = none
    rw [Dict.get?_set, if_neg (inj _ _ h23), Dict.get?_set, if_neg (inj _ _ h12)]
    rfl

/-- **C120 is false for expressions that contain the separator**: a named condition with `/` after its name is refused. -/
theorem C120_false_slash (r : Str) {s : Str} (hs : '/' ∉ s) (hn : ¬ ['?', 'P', '<'] <:+: s) :
    ∃ e, strAttrs (r ++ '/' :: s) = .error e ∧ (e = .valueError) := by
  have h2 : namedPart s = .error .valueError := by
    unfold namedPart indexOf
    rw [findSub_none hn]
    rfl
  have h1 : (∃ x, namedPart r = .ok x) ∨ namedPart r = .error .valueError := by
    unfold namedPart indexOf
    cases findSub ['?', 'P', '<'] r with
    | none => exact Or.inr rfl
    | some i =>
      cases findSub ['>'] r with
      | none => exact Or.inr rfl
      | some j => exact Or.inl ⟨_, rfl⟩
  refine ⟨_, ?_, rfl⟩
  rcases h1 with ⟨x, h1⟩ | h1
  · simp only [strAttrs, rsplit_last _ hs, List.mapM_cons, List.mapM_nil, h1, h2, ok_bind]
    rfl
  · simp only [strAttrs, rsplit_last _ hs, List.mapM_cons, h1]
    rfl

/-- **C120 is false for conditions without a name**, as in the documentation of the macros: `ValueError`. -/
theorem C120_false_plain {s : Str} (hn : ¬ ['?', 'P', '<'] <:+: s) : strAttrs s = .error .valueError := by
  by_cases hs : '/' ∈ s
  · obtain ⟨a, b, hab, hb⟩ : ∃ a b, s = a ++ '/' :: b ∧ '/' ∉ b := by
      clear hn
      induction s with
      | nil => cases hs
      | cons c s ih =>
        by_cases h : '/' ∈ s
        · obtain ⟨a, b, rfl, hb⟩ := ih h
          exact ⟨c :: a, b, rfl, hb⟩
        · rcases List.mem_cons.1 hs with rfl | h'
          · exact ⟨[], s, rfl, h⟩
          · exact absurd h' h
    obtain ⟨e, he, rfl⟩ := C120_false_slash a hb (fun hi => hn (hi.trans ⟨a ++ ['/'], [], by rw [hab]; simp⟩))
    rw [hab]
    exact he
  · have h2 : namedPart s = .error .valueError := by
      unfold namedPart indexOf
      rw [findSub_none hn]
      rfl
    simp only [strAttrs, rsplit_none hs, List.mapM_cons, h2]
    rfl

/-! ### C121 -/

theorem mapM_rel {α β : Type} {g : α → Except Err β} : ∀ {l : List α} {r : List β}, l.mapM g = .ok r →
    List.Forall₂ (fun a b => g a = .ok b) l r
  | [], r, h => by
    rw [List.mapM_nil] at h
    injection h with h
    rw [← h]
    exact .nil
  | a :: l, r, h => by
    rw [List.mapM_cons] at h
    obtain ⟨b, hb, h⟩ := bind_ok h
    obtain ⟨bs, hbs, h⟩ := bind_ok h
    injection h with h
    rw [← h]
    exact .cons hb (mapM_rel hbs)

/-- **C121 is false**: macros cannot be read from a table.  A table with rows that are patterns raises `TypeError`. -/
theorem C121_false {rows : List (Str × Str)} {ps : List Pattern} (hne : rows ≠ []) (h : readCsv rows = .ok ps) :
    readCsvMacros rows = .error .typeError := by
  have : ps ≠ [] := by
    rintro rfl
    have hl := (mapM_rel h).length_eq
    exact hne (List.length_eq_zero_iff.1 hl)
  simp only [readCsvMacros, h, ok_bind]
  cases ps with
  | nil => exact absurd rfl this
  | cons p ps => rfl

theorem finishPattern_id {g : Graph} {p : Pattern} (h : finishPattern g = .ok p) : p.id = none := by
  unfold finishPattern at h
  cases hl : isLinear g with
  | error e => rw [hl] at h; exact nomatch h
  | ok b => rw [hl] at h; injection h with h; rw [← h]

theorem newPattern_id {ns : Dict Nat Cond} {es : Dict (Nat × Nat) Cond} {p : Pattern} (h : newPattern ns es = .ok p) : p.id = none := by
  unfold newPattern at h
  obtain ⟨g, -, h⟩ := bind_ok h
  exact finishPattern_id h

/-- **C121_partial**: patterns read from a table, one for each row, have as `repr_` the text of the feature; they have no
number, so that macros of an XML file cannot refer to them: `AttributeError`. -/
theorem C121_partial (toNat : Str → Option Nat) {rows : List (Str × Str)} {ps : List Pattern} (h : readCsv rows = .ok ps) :
    List.Forall₂ (fun (r : Str × Str) (p : Pattern) => p.repr = some (strip r.2) ∧ p.id = none) rows ps ∧
      ∀ doc, rows ≠ [] → readXml toNat doc ps = .error .attributeError := by
  have hf : List.Forall₂ (fun (r : Str × Str) (p : Pattern) => p.repr = some (strip r.2) ∧ p.id = none) rows ps := by
    refine (mapM_rel h).imp ?_
    intro r p hp
    unfold csvPattern at hp
    obtain ⟨x, -, hp⟩ := bind_ok hp
    obtain ⟨q, hq, hp⟩ := bind_ok hp
    injection hp with hp
    rw [← hp]
    refine ⟨rfl, ?_⟩
    have hid := newPattern_id hq
    exact hid
  refine ⟨hf, ?_⟩
  intro doc hne
  have h1 : ps.mapM withId = .error .attributeError := by
    cases hf with
    | nil => exact absurd rfl hne
    | @cons _ p _ ps' hp _ =>
      have h1 : withId p = .error .attributeError := by unfold withId; rw [hp.2]
      rw [List.mapM_cons, h1]
      rfl
  unfold readXml
  rw [h1]
  rfl

/-! ### Concrete cases -/

/-- The sample conditions. -/
theorem namedCond_lemma : NamedCond "lemma".toList "(?P<lemma>(.+))".toList "((.+))".toList :=
  ⟨⟨"(".toList, "(.+))".toList, by decide +kernel, by decide +kernel, by decide +kernel, by decide +kernel, by decide +kernel⟩, by decide +kernel⟩

theorem namedCond_pos : NamedCond "pos".toList "(?P<pos>(N).*)".toList "((N).*)".toList :=
  ⟨⟨"(".toList, "(N).*)".toList, by decide +kernel, by decide +kernel, by decide +kernel, by decide +kernel, by decide +kernel⟩, by decide +kernel⟩

example : Says "(?P<lemma>(.+))/(?P<pos>(N).*)".toList [("lemma", "((.+))"), ("pos", "((N).*)")] :=
  .two namedCond_lemma (by decide +kernel) namedCond_pos (by decide +kernel) (by decide +kernel)

/-- A dict beside a string. -/
example : Given (.attrs [("pos", "V.*")]) [("pos", "V.*")] ∧
    Given (.str "(?P<lemma>(.+))/(?P<pos>(N).*)".toList) [("lemma", "((.+))"), ("pos", "((N).*)")] :=
  ⟨.attrs (by unfold Dict.WF; decide), .str (.two namedCond_lemma (by decide +kernel) namedCond_pos (by decide +kernel) (by decide +kernel))⟩

/-- Three conditions: the second name is not among the attributes. -/
example : NamedCond "lemma".toList "(?P<lemma>(.+))/(?P<pos>(N).*)".toList "((.+))/(?P<pos>(N).*)".toList :=
  ⟨⟨"(".toList, "(.+))/(?P<pos>(N).*)".toList, by decide +kernel, by decide +kernel, by decide +kernel, by decide +kernel, by decide +kernel⟩, by decide +kernel⟩

example : ∃ e, strAttrs "(?P<lemma>a/b)".toList = .error e ∧ e = .valueError :=
  C120_false_slash "(?P<lemma>a".toList (s := "b)".toList) (by decide +kernel) (by decide +kernel)

/-- A table with one row. -/
example : ∃ p, readCsv [("(?P<lemma>x)".toList, "->(?P<deprel>r) (?P<lemma>y)".toList)] = .ok [p] ∧ p.id = none ∧
    Dict.keys p.graph.nodes = [1, 2] ∧ p.nonlinear = false := by
  refine ⟨⟨⟨[(1, [("lemma", "(x)")]), (2, [("lemma", "(y)")])], [((1, 2), [("deprel", "(r)")])]⟩, none,
    some "->(?P<deprel>r) (?P<lemma>y)".toList, false⟩, ?_, rfl, rfl, rfl⟩
  decide +kernel

end Verif.Dep
