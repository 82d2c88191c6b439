import Verif.Regex.Templates
import Verif.Regex.PropsLines
import Verif.Front.PropsVocab

/-!
# C184-C186: regular expressions of templates and of `Vocab.match`
-/

namespace Verif.Regex

open Verif.Py
open Verif.Vocab.Plain (Str isSpace)
open Verif.Vocab (Vocab)
open Verif.Dep (Attrs matchAttrs matchLoop groupStr)

/-! ## Patterns of words -/

/-- The words, separated by `|`. -/
def orText : List Str → Str
  | [] => []
  | [w] => w
  | w :: w' :: ws => w ++ '|' :: orText (w' :: ws)

/-- The expression of alternatives. -/
def orRe : List Str → Re
  | [] => chain []
  | [w] => chain (w.map chrRe)
  | w :: w' :: ws => .alt (chain (w.map chrRe)) (orRe (w' :: ws))

/-- The parts of such a pattern. -/
def orToks : List Str → List Tok
  | [] => []
  | [w] => w.map (fun c => .cls (.one (.chr c)))
  | w :: w' :: ws => w.map (fun c => .cls (.one (.chr c))) ++ .bar :: orToks (w' :: ws)

theorem lex_or {ws : List Str} (h : ∀ w ∈ ws, ∀ c ∈ w, Plain c) : lex .out (orText ws) = some (orToks ws) := by
  induction ws with
  | nil => rfl
  | cons w ws ih =>
    have hw := lex_word (h w (List.mem_cons_self ..))
    cases ws with
    | nil => exact hw
    | cons w' ws =>
      have hi := ih (fun x hx => h x (List.mem_cons_of_mem _ hx))
      have : lex .out ('|' :: orText (w' :: ws)) = some (.bar :: orToks (w' :: ws)) := by
        have := lex_two (a := ['|']) (ts := [.bar]) (by decide) hi
        exact this
      exact lex_two hw this

theorem parse_or (ws : List Str) (alts : List Re) (st : List (Nat × Frame)) (n : Nat) :
    ∃ f : Frame, (orToks ws).foldlM parseStep ⟨⟨alts, []⟩, st, n⟩ = some ⟨f, st, n⟩ ∧
      f.re = alts.foldl (fun acc r => .alt r acc) (orRe ws) := by
  induction ws generalizing alts with
  | nil => exact ⟨⟨alts, []⟩, rfl, rfl⟩
  | cons w ws ih =>
    cases ws with
    | nil =>
      refine ⟨⟨alts, (w.map chrRe).reverse ++ []⟩, Adds.word w ⟨alts, []⟩ st n, ?_⟩
      rw [Frame.re, seqOf_chain, List.append_nil, List.reverse_reverse]
      rfl
    | cons w' ws =>
      obtain ⟨f, h1, h2⟩ := ih (chain (w.map chrRe) :: alts)
      refine ⟨f, ?_, ?_⟩
      · rw [orToks, List.foldlM_append, Adds.word w ⟨alts, []⟩ st n]
        simp only [Option.bind_eq_bind, Option.bind_some, List.foldlM_cons, parseStep]
        rw [seqOf_chain, List.append_nil, List.reverse_reverse]
        exact h1
      · rw [h2]
        rfl

theorem runs_or (u : Tables) (ws : List Str) (hne : ws ≠ []) (s : St) :
    (orRe ws).runs u s = (ws.filter (fun w => decide (w <+: s.rest))).map (fun w => s.skip w.length) := by
  induction ws with
  | nil => exact absurd rfl hne
  | cons w ws ih =>
    cases ws with
    | nil =>
      rw [orRe, runs_word]
      by_cases h : w <+: s.rest <;> simp [h]
    | cons w' ws =>
      rw [orRe, Re.runs, runs_word, ih (by simp), List.filter_cons (x := w)]
      by_cases h : w <+: s.rest
      · rw [if_pos h, if_pos (decide_eq_true h), List.map_cons]
        rfl
      · rw [if_neg h, if_neg (by simpa using h)]
        rfl

/-- Words separated by `|` match the texts that begin with one of the words; the match is the first such word. -/
theorem reMatch_or (u : Tables) {ws : List Str} (hne : ws ≠ []) (h : ∀ w ∈ ws, ∀ c ∈ w, Plain c) (text : Str) :
    reMatch u (orText ws) text = (ws.find? (fun w => decide (w <+: text))).map (fun w => [some w]) := by
  have hc : compile (orText ws) = some (orRe ws, 0) := by
    rw [compile, lex_or h]
    obtain ⟨f, h1, h2⟩ := parse_or ws [] [] 0
    simp only [Option.bind_eq_bind, Option.bind_some, h1, if_true, h2, List.foldl_nil]
  rw [reMatch, hc]
  simp only [Re.exec]
  rw [runs_or u ws hne, List.head?_map, List.head?_filter, Option.map_map]
  cases hf : ws.find? (fun w => decide (w <+: text)) with
  | none => rfl
  | some w =>
    have hp : w <+: text := by simpa using List.find?_some hf
    show some [some (text.take (0 + w.length))] = some [some w]
    rw [Nat.zero_add, ← List.prefix_iff_eq_take.1 hp]

/-- `(w)` and what follows. -/
theorem compile_group {w p : Str} (h : ∀ c ∈ w, Plain c) {ts : List Tok} {rs : List Re} (hp : lex .out p = some ts)
    (ha : Adds ts (fun _ => rs) 0) :
    compile ('(' :: (w ++ ')' :: p)) = some (chain (.grp 1 (chain (w.map chrRe)) :: rs), 1) := by
  have hl : lex .out (['('] ++ w ++ [')'] ++ p) = some ([.open] ++ w.map (fun c => .cls (.one (.chr c))) ++ [.close] ++ ts) :=
    lex_two (lex_two (lex_two (by decide) (lex_word h)) (by decide)) hp
  have h1 : Adds ([.open] ++ w.map (fun c => .cls (.one (.chr c))) ++ [.close]) (fun n => [.grp (n + 1) (chain (w.map chrRe))]) 1 := by
    intro f st n
    have h0 : ([Tok.open] : List Tok).foldlM parseStep ⟨f, st, n⟩ = some ⟨⟨[], []⟩, (n + 1, f) :: st, n + 1⟩ := rfl
    rw [List.foldlM_append, List.foldlM_append, h0]
    simp only [Option.bind_eq_bind, Option.bind_some]
    rw [Adds.word w ⟨[], []⟩ ((n + 1, f) :: st) (n + 1)]
    simp only [Option.bind_some, List.foldlM_cons, List.foldlM_nil, parseStep, Frame.re, seqOf_chain, List.append_nil,
      List.reverse_reverse, List.foldl_nil, Nat.add_zero]
    rfl
  have := compile_adds hl (h1.append ha)
  simpa using this

theorem runs_group (u : Tables) (i : Nat) (w : Str) (s : St) :
    (Re.grp i (chain (w.map chrRe))).runs u s =
      if w <+: s.rest then [{ s.skip w.length with caps := Dict.set s.caps i w }] else [] := by
  rw [Re.runs, runs_word]
  by_cases h : w <+: s.rest
  · rw [if_pos h, if_pos h]
    show [St.mk _ _ (Dict.set s.caps i (s.rest.take (s.pos + w.length - s.pos)))] = _
    rw [Nat.add_sub_cancel_left, ← List.prefix_iff_eq_take.1 h]
  · rw [if_neg h, if_neg h]
    rfl

/-- `(w)$` matches the text itself, and the text with a newline after it; the group is the text. -/
theorem reMatch_group_exact (u : Tables) {w : Str} (h : ∀ c ∈ w, Plain c) (text : Str) :
    reMatch u ('(' :: (w ++ [')', '$'])) text = if text = w ∨ text = w ++ ['\n'] then some [some w, some w] else none := by
  have hc := compile_group (p := ['$']) h (ts := [.eol]) (rs := [.eol]) (by decide) (fun f st n => rfl)
  rw [reMatch, hc]
  simp only [Re.exec]
  rw [runs_chain_cons, runs_group]
  by_cases hp : w <+: text
  · rw [if_pos hp]
    obtain ⟨v, rfl⟩ := hp
    simp only [List.flatMap_cons, List.flatMap_nil, List.append_nil]
    rw [runs_chain_cons, Re.runs]
    have hr : (St.skip ⟨0, w ++ v, []⟩ w.length).rest = v := by simp [St.skip]
    simp only [hr]
    have hv : (v = [] ∨ v = ['\n']) ↔ (w ++ v = w ∨ w ++ v = w ++ ['\n']) := by
      constructor
      · rintro (rfl | rfl)
        · exact .inl (List.append_nil _)
        · exact .inr rfl
      · rintro (e | e)
        · exact .inl (List.append_right_eq_self.1 e)
        · exact .inr (List.append_cancel_left e)
    by_cases h0 : v = [] ∨ v = ['\n']
    · rw [if_pos h0, if_pos (hv.1 h0)]
      show some [some ((w ++ v).take (0 + w.length)), Dict.get? (Dict.set [] 1 w) 1] = _
      rw [Nat.zero_add, List.take_left, Dict.get?_set, if_pos rfl]
    · rw [if_neg h0, if_neg (fun e => h0 (hv.2 e))]
      rfl
  · rw [if_neg hp, if_neg]
    · rfl
    · rintro (rfl | rfl)
      · exact hp List.prefix_rfl
      · exact hp (List.prefix_append _ _)

/-- `(w)` alone and `(w)\w*`: texts that begin with the word; the group is the word. -/
theorem reMatch_group_prefix (u : Tables) {w : Str} (h : ∀ c ∈ w, Plain c) (text : Str) :
    (reMatch u ('(' :: (w ++ [')'])) text = if w <+: text then some [some w, some w] else none) ∧
    (reMatch u ('(' :: (w ++ [')', '\\', 'w', '*'])) text =
      if w <+: text then some [some (w ++ (text.drop w.length).takeWhile (fun c => u.alnum c || c == '_')), some w] else none) := by
  constructor
  · have hc := compile_group (p := []) h (ts := []) (rs := []) rfl Adds.nil
    rw [reMatch, hc]
    simp only [Re.exec]
    rw [runs_chain_cons, runs_group]
    by_cases hp : w <+: text
    · rw [if_pos hp, if_pos hp]
      show some [some (text.take (0 + w.length)), Dict.get? (Dict.set [] 1 w) 1] = _
      rw [Nat.zero_add, ← List.prefix_iff_eq_take.1 hp, Dict.get?_set, if_pos rfl]
    · rw [if_neg hp, if_neg hp]
      rfl
  · have hc := compile_group (p := ['\\', 'w', '*']) h (ts := [.cls (.one (.word false)), .star])
      (rs := [.many (.one (.word false)) 0]) (by decide) (fun f st n => rfl)
    rw [reMatch, hc]
    simp only [Re.exec]
    rw [runs_chain_cons, runs_group]
    by_cases hp : w <+: text
    · rw [if_pos hp, if_pos hp]
      obtain ⟨v, rfl⟩ := hp
      simp only [List.flatMap_cons, List.flatMap_nil, List.append_nil]
      have h3 : ∀ t : St, (chain []).runs u t = [t] := fun t => rfl
      rw [runs_chain_cons, List.flatMap_congr (fun t _ => h3 t), List.flatMap_singleton', Re.runs]
      have hr : (St.skip ⟨0, w ++ v, []⟩ w.length).rest = v := by simp [St.skip]
      simp only [hr]
      obtain ⟨l, e, _⟩ := down_succ (Nat.zero_le (span u (.one (.word false)) v))
      rw [e]
      have hsp : v.take (span u (.one (.word false)) v) = v.takeWhile (fun c => u.alnum c || c == '_') := by
        have hfun : Cls.has u (.one (.word false)) = (fun c => u.alnum c || c == '_') := by
          funext c
          simp [Cls.has, Mem.has]
        rw [span, hfun]
        exact (List.prefix_iff_eq_take.1 (List.takeWhile_prefix _)).symm
      show some [some ((w ++ v).take (0 + w.length + span u (.one (.word false)) v)), Dict.get? (Dict.set [] 1 w) 1] = _
      rw [Nat.zero_add, List.take_length_add_append, hsp, List.drop_left, Dict.get?_set, if_pos rfl]
    · rw [if_neg hp, if_neg hp]
      rfl

/-- `(c+)` for a class: the longest start of the text in the class, if it is not empty. -/
theorem reMatch_class (u : Tables) {c : Cls} {p : Str} (hp : lex .out p = some [.open, .cls c, .plus, .close]) (text : Str) :
    reMatch u p text = if text.takeWhile (c.has u) = [] then none
      else some [some (text.takeWhile (c.has u)), some (text.takeWhile (c.has u))] := by
  have hc : compile p = some (chain [.grp 1 (chain [.many c 1])], 1) :=
    compile_adds hp (rs := fun n => [.grp (n + 1) (chain [.many c 1])]) (fun f st n => rfl)
  rw [reMatch, hc]
  simp only [Re.exec]
  have h3 : ∀ t : St, (chain []).runs u t = [t] := fun t => rfl
  rw [runs_chain_cons, List.flatMap_congr (fun t _ => h3 t), List.flatMap_singleton', Re.runs, runs_chain_cons,
    List.flatMap_congr (fun t _ => h3 t), List.flatMap_singleton', Re.runs]
  have hsp : text.take (span u c text) = text.takeWhile (c.has u) :=
    (List.prefix_iff_eq_take.1 (List.takeWhile_prefix _)).symm
  by_cases h0 : text.takeWhile (c.has u) = []
  · rw [if_pos h0]
    have : span u c text = 0 := by rw [span, h0]; rfl
    simp only [this]
    rw [down_empty (by omega)]
    rfl
  · rw [if_neg h0]
    have : 1 ≤ span u c text := List.length_pos_iff.2 h0
    obtain ⟨l, e, _⟩ := down_succ this
    simp only
    rw [e]
    show some [some (text.take (0 + span u c text)),
      Dict.get? (Dict.set [] 1 (text.take (0 + span u c text - 0))) 1] = _
    rw [Nat.zero_add, Nat.sub_zero, hsp, Dict.get?_set, if_pos rfl]

/-! ## C184: relations of templates -/

theorem matchAttrs_one (rx : String → String → Bool) (a re : String) (item : Attrs) :
    matchAttrs rx [(a, re)] item = match Dict.get? item a with
      | some v => .ok (rx re v)
      | none => .error .keyError := by
  rw [matchAttrs, matchLoop]
  cases Dict.get? item a with
  | none => rfl
  | some v =>
    simp only
    cases rx re v <;> rfl

/-- C184, partial: a template edge (or node) with the attribute `(w)$` matches exactly the edges whose attribute is `w`, if
attributes do not end with a newline; the attributes of sentences do not, because lines are stripped.  Missing: the same without
`$`, see `C184_prefix`. -/
theorem C184_anchored_partial (u : Tables) {w : Str} (h : ∀ c ∈ w, Plain c) (a : String) (item : Attrs) (v : String)
    (hv : Dict.get? item a = some v) (hn : v.toList.getLast? ≠ some '\n') :
    matchAttrs (rxS u) [(a, String.ofList ('(' :: (w ++ [')', '$'])))] item = .ok (decide (v.toList = w)) := by
  rw [matchAttrs_one, hv]
  simp only [rxS, String.toList_ofList]
  rw [reMatch_group_exact u h]
  have hn' : v.toList ≠ w ++ ['\n'] := by
    intro e
    rw [e, List.getLast?_append] at hn
    exact hn rfl
  by_cases he : v.toList = w
  · rw [if_pos (.inl he), decide_eq_true he]; rfl
  · rw [if_neg (by rintro (e | e); exacts [he e, hn' e]), decide_eq_false he]; rfl

/-- C184, exact, without `$`: the word alone, in parentheses, or one of several words separated by `|` matches every edge whose
attribute begins with it. -/
theorem C184_prefix (u : Tables) (a : String) (item : Attrs) (v : String) (hv : Dict.get? item a = some v) :
    (∀ ws : List Str, ws ≠ [] → (∀ w ∈ ws, ∀ c ∈ w, Plain c) →
      matchAttrs (rxS u) [(a, String.ofList (orText ws))] item = .ok (decide (∃ w ∈ ws, w <+: v.toList))) ∧
    ∀ w : Str, (∀ c ∈ w, Plain c) →
      matchAttrs (rxS u) [(a, String.ofList ('(' :: (w ++ [')'])))] item = .ok (decide (w <+: v.toList)) := by
  refine ⟨fun ws hne h => ?_, fun w h => ?_⟩
  · rw [matchAttrs_one, hv]
    simp only [rxS, String.toList_ofList]
    rw [reMatch_or u hne h, Option.isSome_map]
    congr 1
    rw [Bool.eq_iff_iff, List.find?_isSome]
    simp
  · rw [matchAttrs_one, hv]
    simp only [rxS, String.toList_ofList]
    rw [(reMatch_group_prefix u h v.toList).1]
    by_cases hp : w <+: v.toList
    · rw [if_pos hp, decide_eq_true hp]; rfl
    · rw [if_neg hp, decide_eq_false hp]; rfl

/-- C184 is false: the shipped template with the relation `(nsubj)` also matches passive subjects. -/
theorem C184_false : ∃ item : Attrs, Dict.get? item "deprel" = some "nsubjpass" ∧
    matchAttrs (rxS ascii) [("deprel", "(nsubj)")] item = .ok true :=
  ⟨[("deprel", "nsubjpass")], by decide, by decide +kernel⟩

example : matchAttrs (rxS ascii) [("deprel", "(nsubj)$")] [("deprel", "nsubjpass")] = .ok false ∧
    matchAttrs (rxS ascii) [("deprel", "(nsubj)$")] [("deprel", "nsubj")] = .ok true ∧
    matchAttrs (rxS ascii) [("deprel", "dobj|nsubj")] [("deprel", "nsubjpass")] = .ok true ∧
    (∀ c ∈ ['n', 's', 'u', 'b', 'j'], Plain c) ∧ orText [['d', 'o', 'b', 'j'], ['n', 's', 'u', 'b', 'j']] = "dobj|nsubj".toList := by
  decide +kernel

/-! ## C185: what target and feature strings show of an attribute -/

/-- `\w`. -/
def Wordy (u : Tables) (c : Char) : Bool := u.alnum c || c == '_'

/-- C185, exact, for `(\w+)`: the string shows the longest start of the attribute that consists of word characters; an attribute that
starts with another character is shown as `*`. -/
theorem C185_word (u : Tables) (v : String) :
    groupStr (grpS u) "(\\w+)" v 1 =
      if v.toList.takeWhile (Wordy u) = [] then "*" else String.ofList (v.toList.takeWhile (Wordy u)) := by
  have hfun : Cls.has u (.one (.word false)) = Wordy u := by
    funext c
    simp [Cls.has, Mem.has, Wordy]
  have hl : lex .out "(\\w+)".toList = some [.open, .cls (.one (.word false)), .plus, .close] := by decide +kernel
  rw [groupStr, grpS, reMatch_class u hl, hfun]
  by_cases h : v.toList.takeWhile (Wordy u) = []
  · rw [if_pos h, if_pos h]; rfl
  · rw [if_neg h, if_neg h]; rfl

/-- C185, exact, for `(.+)`: the string shows the attribute up to the first newline. -/
theorem C185_dot (u : Tables) (v : String) :
    groupStr (grpS u) "(.+)" v 1 =
      if v.toList.takeWhile (· != '\n') = [] then "*" else String.ofList (v.toList.takeWhile (· != '\n')) := by
  have hl : lex .out "(.+)".toList = some [.open, .cls .any, .plus, .close] := by decide +kernel
  have hfun : Cls.has u .any = (· != '\n') := rfl
  rw [groupStr, grpS, reMatch_class u hl, hfun]
  by_cases h : v.toList.takeWhile (· != '\n') = []
  · rw [if_pos h, if_pos h]; rfl
  · rw [if_neg h, if_neg h]; rfl

theorem takeWhile_all {p : Char → Bool} {l : Str} (h : ∀ c ∈ l, p c = true) : l.takeWhile p = l := by
  induction l with
  | nil => rfl
  | cons c cs ih =>
    rw [List.takeWhile_cons, h c (List.mem_cons_self ..), if_pos rfl, ih (fun x hx => h x (List.mem_cons_of_mem _ hx))]

/-- C185, partial: an attribute that is not empty is shown in full by `(.+)` if it has no newline, and by `(\w+)` if it consists of
word characters.  Missing: other attributes with `(\w+)`, see `C185_word`. -/
theorem C185_partial (u : Tables) (v : String) (hv : v.toList ≠ []) :
    ('\n' ∉ v.toList → groupStr (grpS u) "(.+)" v 1 = v) ∧
    ((∀ c ∈ v.toList, Wordy u c = true) → groupStr (grpS u) "(\\w+)" v 1 = v) := by
  constructor
  · intro h
    have e : v.toList.takeWhile (· != '\n') = v.toList :=
      takeWhile_all (fun c hc => by simp only [bne_iff_ne]; exact fun he => h (he ▸ hc))
    rw [C185_dot, e, if_neg hv, String.ofList_toList]
  · intro h
    rw [C185_word, takeWhile_all h, if_neg hv, String.ofList_toList]

/-- `(w)\w*`: of every attribute that begins with the word, the string shows the word. -/
theorem C185_prefix (u : Tables) {w : Str} (h : ∀ c ∈ w, Plain c) (v : String) :
    groupStr (grpS u) (String.ofList ('(' :: (w ++ [')', '\\', 'w', '*']))) v 1 = if w <+: v.toList then String.ofList w else "*" := by
  rw [groupStr, grpS, String.toList_ofList, (reMatch_group_prefix u h v.toList).2]
  by_cases hp : w <+: v.toList
  · rw [if_pos hp, if_pos hp]; rfl
  · rw [if_neg hp, if_neg hp]; rfl

/-- C185 is false: with `(\w+)` two different lemmas have the same target string, so that they share one row. -/
theorem C185_false : ∃ (m : Verif.Dep.Macro) (m1 m2 : Verif.Dep.Match) (s : String),
    m1.nodes = [(1, [("lemma", "mother-in-law"), ("pos", "NN")])] ∧ m2.nodes = [(1, [("lemma", "mother"), ("pos", "NN")])] ∧
    Verif.Dep.targetStr (grpS ascii) false m m1 = .ok s ∧ Verif.Dep.targetStr (grpS ascii) false m m2 = .ok s := by
  refine ⟨⟨⟨[(1, [("lemma", "(\\w+)"), ("pos", "(N)\\w*")])], []⟩, 1, none, [("lemma", 1), ("pos", 1)], [], [], none, "/", 0, []⟩,
    ⟨[(1, [("lemma", "mother-in-law"), ("pos", "NN")])], []⟩, ⟨[(1, [("lemma", "mother"), ("pos", "NN")])], []⟩,
    "mother/N", rfl, rfl, ?_, ?_⟩ <;> decide +kernel

example : groupStr (grpS ascii) "(\\w+)" "mother-in-law" 1 = "mother" ∧ groupStr (grpS ascii) "(.+)" "mother-in-law" 1 = "mother-in-law" ∧
    groupStr (grpS ascii) "(N)\\w*" "NNS" 1 = "N" ∧ groupStr (grpS ascii) "(\\w+)" "-" 1 = "*" ∧
    (∀ c ∈ "apple".toList, Wordy ascii c = true) := by decide +kernel

/-! ## C186: patterns of `Vocab.match` -/

/-- C186, partial: text without special characters selects the items that begin with it, and the text between `^` and `$` selects the
item itself (if no item ends with a newline), in the order of `C100`.  Missing: items with special characters
(`C186_false`). -/
theorem C186_partial (u : Tables) {w : Str} (h : ∀ c ∈ w, Plain c) (v : Vocab Str) (hv : Dict.WF v.freq) :
    (∃ l, vocabMatch u w "item".toList v = .ok l ∧ l.Nodup ∧ ∀ i, i ∈ l ↔ (∃ n, Dict.get? v.freq i = some n) ∧ w <+: i) ∧
    ((∀ i n, Dict.get? v.freq i = some n → i.getLast? ≠ some '\n') →
      ∃ l, vocabMatch u ('^' :: (w ++ ['$'])) "item".toList v = .ok l ∧ l.Nodup ∧
        ∀ i, i ∈ l ↔ i = w ∧ ∃ n, Dict.get? v.freq w = some n) := by
  constructor
  · obtain ⟨l, h1, h2, h3, _⟩ := Verif.Front.C100_match_partial (fun s => (reMatch u w s).isSome) v hv
    refine ⟨l, h1, h2, fun i => ?_⟩
    rw [h3 i, reMatch_word u h]
    by_cases hp : w <+: i
    · rw [if_pos hp]; simp [hp]
    · rw [if_neg hp]; simp [hp]
  · intro hnl
    obtain ⟨l, h1, h2, h3, _⟩ := Verif.Front.C100_match_partial (fun s => (reMatch u ('^' :: (w ++ ['$'])) s).isSome) v hv
    refine ⟨l, h1, h2, fun i => ?_⟩
    rw [h3 i, reMatch_exact u h]
    constructor
    · rintro ⟨⟨n, hn⟩, hb⟩
      split at hb
      · rename_i hc
        rcases hc with rfl | rfl
        · exact ⟨rfl, n, hn⟩
        · exact absurd (by rw [List.getLast?_append]; rfl) (hnl _ n hn)
      · simp at hb
    · rintro ⟨rfl, hn⟩
      exact ⟨hn, by rw [if_pos (.inl rfl)]; rfl⟩

/-- C186 is false: the text of an item as a pattern may select other items, too, and need not select the item itself. -/
theorem C186_false : ∃ v : Vocab Str, Dict.WF v.freq ∧
    (Dict.get? v.freq "a./N".toList = some 3 ∧ vocabMatch ascii "a./N".toList "item".toList v = .ok ["a./N".toList, "ab/NN".toList]) ∧
    (Dict.get? v.freq "$/SYM".toList = some 1 ∧ vocabMatch ascii "$/SYM".toList "item".toList v = .ok []) := by
  refine ⟨Vocab.mk' [("a./N".toList, 3), ("ab/NN".toList, 2), ("$/SYM".toList, 1)], ?_, ⟨by decide +kernel, by decide +kernel⟩,
    ⟨by decide +kernel, by decide +kernel⟩⟩
  unfold Dict.WF
  decide +kernel

theorem acc_chain_nil {u : Tables} {p : Nat} {w z : Str} : Acc u (chain []) p w z ↔ w = [] := by
  constructor
  · intro h; cases h; rfl
  · rintro rfl; exact .eps _ _

theorem acc_chain_cons {u : Tables} {r : Re} {rs : List Re} {p : Nat} {w z : Str} :
    Acc u (chain (r :: rs)) p w z ↔ ∃ a b, w = a ++ b ∧ Acc u r p a (b ++ z) ∧ Acc u (chain rs) (p + a.length) b z := by
  constructor
  · intro h
    cases h with
    | seq h1 h2 => exact ⟨_, _, rfl, h1, h2⟩
  · rintro ⟨a, b, rfl, h1, h2⟩
    exact .seq h1 h2

theorem acc_any {u : Tables} {p : Nat} {w z : Str} : Acc u (.one .any) p w z ↔ ∃ x, w = [x] ∧ x ≠ '\n' := by
  constructor
  · intro h
    cases h with
    | one _ _ hx => exact ⟨_, rfl, by simpa [Cls.has] using hx⟩
  · rintro ⟨x, rfl, hx⟩
    exact .one _ _ (by simpa [Cls.has] using hx)

theorem acc_many_any {u : Tables} {p lo : Nat} {w z : Str} : Acc u (.many .any lo) p w z ↔ lo ≤ w.length ∧ '\n' ∉ w := by
  constructor
  · intro h
    cases h with
    | many _ _ h1 h2 => exact ⟨h1, fun hm => by simpa [Cls.has] using h2 _ hm⟩
  · rintro ⟨h1, h2⟩
    exact .many _ _ h1 (fun x hx => by simp only [Cls.has, bne_iff_ne]; exact fun e => h2 (e ▸ hx))

theorem acc_chr {u : Tables} {p : Nat} {c : Char} {w z : Str} : Acc u (chrRe c) p w z ↔ w = [c] := by
  constructor
  · intro h
    cases h with
    | one _ _ hx => simp only [Cls.has, Mem.has, beq_iff_eq] at hx; rw [hx]
  · rintro rfl
    exact .one _ _ (by simp [Cls.has, Mem.has])

/-- The pattern of the documentation for nouns, `^..+/N.*`: it selects the items with `/N` after two or more characters (other than
newlines), whatever follows. -/
theorem C186_documented (u : Tables) (v : Vocab Str) (hv : Dict.WF v.freq) :
    ∃ l, vocabMatch u "^..+/N.*".toList "item".toList v = .ok l ∧ l.Nodup ∧
      ∀ i, i ∈ l ↔ (∃ n, Dict.get? v.freq i = some n) ∧
        ∃ a b, i = a ++ '/' :: 'N' :: b ∧ 2 ≤ a.length ∧ '\n' ∉ a := by
  obtain ⟨l, h1, h2, h3, _⟩ := Verif.Front.C100_match_partial (fun s => (reMatch u "^..+/N.*".toList s).isSome) v hv
  refine ⟨l, h1, h2, fun i => ?_⟩
  rw [h3 i]
  refine and_congr_right fun _ => ?_
  have hc : compile "^..+/N.*".toList =
      some (chain [.bol, .one .any, .many .any 1, chrRe '/', chrRe 'N', .many .any 0], 0) := by decide +kernel
  rw [reMatch, hc]
  simp only
  rw [exec_isSome]
  constructor
  · rintro ⟨w, z, rfl, h⟩
    rw [acc_chain_cons] at h
    obtain ⟨w0, w', rfl, h0, h⟩ := h
    cases h0
    rw [acc_chain_cons] at h
    obtain ⟨wa, w', rfl, ha, h⟩ := h
    obtain ⟨x, rfl, hx⟩ := acc_any.1 ha
    rw [acc_chain_cons] at h
    obtain ⟨wb, w', rfl, hb, h⟩ := h
    obtain ⟨hl, hn⟩ := acc_many_any.1 hb
    rw [acc_chain_cons] at h
    obtain ⟨wc, w', rfl, hc', h⟩ := h
    rw [acc_chr] at hc'
    subst hc'
    rw [acc_chain_cons] at h
    obtain ⟨wd, w', rfl, hd, h⟩ := h
    rw [acc_chr] at hd
    subst hd
    refine ⟨x :: wb, w' ++ z, by simp, by rw [List.length_cons]; omega, ?_⟩
    simp only [List.mem_cons, not_or]
    exact ⟨fun e => hx e.symm, hn⟩
  · rintro ⟨a, b, rfl, hl, hn⟩
    cases a with
    | nil => simp at hl
    | cons x wb =>
      simp only [List.mem_cons, not_or] at hn
      rw [List.length_cons] at hl
      refine ⟨x :: wb ++ ['/', 'N'], b, by simp, ?_⟩
      rw [acc_chain_cons]
      refine ⟨[], x :: wb ++ ['/', 'N'], rfl, .bol _, ?_⟩
      rw [acc_chain_cons]
      refine ⟨[x], wb ++ ['/', 'N'], rfl, acc_any.2 ⟨x, rfl, fun e => hn.1 e.symm⟩, ?_⟩
      rw [acc_chain_cons]
      refine ⟨wb, ['/', 'N'], rfl, acc_many_any.2 ⟨by omega, hn.2⟩, ?_⟩
      rw [acc_chain_cons]
      refine ⟨['/'], ['N'], rfl, acc_chr.2 rfl, ?_⟩
      rw [acc_chain_cons]
      refine ⟨['N'], [], rfl, acc_chr.2 rfl, ?_⟩
      rw [acc_chain_cons]
      exact ⟨[], [], rfl, acc_many_any.2 ⟨by simp, by simp⟩, acc_chain_nil.2 rfl⟩

example : vocabMatch ascii "^..+/N.*".toList "item".toList
    (Vocab.mk' [("be/V".toList, 9), ("apple/NN".toList, 3), ("a/N".toList, 2), ("no/Ne/X".toList, 1)]) =
      .ok ["apple/NN".toList, "no/Ne/X".toList] := by decide +kernel

end Verif.Regex
