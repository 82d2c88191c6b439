import Verif.Items.Getter
import Verif.Items.PropsFormatter
import Verif.Dep.PropsPattern
import Verif.Vocab.PlainLemmas

/-!
# C201: reading items by group numbers; C202: the lines of a sentence
-/

namespace Verif.Items.Old

open Verif.Py Verif.Items
open Verif.Vocab.Plain (Str)

/-! ### Specification -/

/-- Group `i` of a match is the text `s`. -/
def HasGroup (m : Match) (i : Int) (s : Str) : Prop := 0 ≤ i ∧ m[i.toNat]? = some (some s)

/-- The groups `ns` of a match are these texts. -/
def HasGroups (m : Match) (ns : List Int) (ss : List Str) : Prop := List.Forall₂ (HasGroup m) ns ss

/-- A text that gives group numbers: the numbers in decimal, with blanks around them if one likes, and commas between. -/
def Gives (t : Str) (ns : List Int) : Prop :=
  ∃ ts : List Str, t = join ',' ts ∧ ts ≠ [] ∧ List.Forall₂ (fun n u => ∃ a b, Dep.Blank a ∧ Dep.Blank b ∧ u = a ++ Vocab.Plain.intStr n ++ b) ns ts

/-! ### Proof -/

theorem okBind {α β : Type} (x : α) (f : α → Except Err β) : (Except.ok x >>= f) = f x := rfl

theorem trimmed_intStr (n : Int) : Dep.Trimmed (Vocab.Plain.intStr n) := by
  obtain ⟨hne, hc⟩ := Vocab.Plain.intStr_chars n
  cases h : Vocab.Plain.intStr n with
  | nil => exact absurd h hne
  | cons c cs =>
    rw [h] at hc
    exact ⟨⟨c, rfl, (hc c (by simp)).1⟩, ⟨(c :: cs).getLast (by simp), List.getLast?_eq_getLast_of_ne_nil _, (hc _ (List.getLast_mem _)).1⟩⟩

theorem comma_intStr (n : Int) : ',' ∉ Vocab.Plain.intStr n := by
  have dig : ∀ k : Nat, ',' ∉ Vocab.Plain.natStr k := fun k hm => by
    have := (Vocab.Plain.natStr_digits k).2 _ hm
    revert this; decide
  cases n with
  | ofNat k => exact dig k
  | negSucc k =>
    intro hm
    rcases List.mem_cons.1 hm with h | h
    · revert h; decide
    · exact dig _ h

theorem comma_blank {a : Str} (h : Dep.Blank a) : ',' ∉ a := fun hm => absurd (h _ hm) (by decide)

theorem numbers_gives {t : Str} {ns : List Int} (h : Gives t ns) : numbers t = .ok ns := by
  obtain ⟨ts, rfl, hne, hf⟩ := h
  unfold numbers
  rw [split_join ',' ts hne]
  · clear hne
    induction hf with
    | nil => rfl
    | cons hu _ ih =>
      rename_i n u ns ts _
      obtain ⟨a, b, ha, hb, rfl⟩ := hu
      rw [List.mapM_cons]
      have : toInt (a ++ Vocab.Plain.intStr n ++ b) = .ok n := by
        unfold toInt
        rw [Dep.strip_pad ha hb (trimmed_intStr n), Vocab.Plain.parseInt_intStr]
      rw [this]
      show (do let r ← ts.mapM toInt; pure (n :: r) : Except Err _) = _
      rw [ih]
      rfl
  · intro u hu
    obtain ⟨n, _, a, b, ha, hb, rfl⟩ : ∃ n ∈ ns, ∃ a b, Dep.Blank a ∧ Dep.Blank b ∧ u = a ++ Vocab.Plain.intStr n ++ b := by
      clear hne
      induction hf with
      | nil => cases hu
      | cons h1 _ ih =>
        rcases List.mem_cons.1 hu with rfl | h
        · exact ⟨_, by simp, h1⟩
        · obtain ⟨n, hn, hx⟩ := ih h
          exact ⟨n, List.mem_cons_of_mem _ hn, hx⟩
    simp only [List.mem_append, not_or]
    exact ⟨⟨comma_blank ha, comma_intStr n⟩, comma_blank hb⟩

theorem funcOf_gives {s : Settings} {k : String} {t : Str} {ns : List Int} (h : Dict.get? s k = some t) (hg : Gives t ns) :
    funcOf s k = .ok ns := by
  unfold funcOf getKey
  rw [h]
  exact numbers_gives hg

/-- **C201**: the getter made from settings has their expressions and reads the groups whose numbers they give. -/
theorem C201_settings {s : Settings} {form tm wm sep lb rb sb tw tp tl tc tn : Str} {w p l c n : List Int}
    (h1 : Dict.get? s "form" = some form) (h2 : Dict.get? s "token-line-machine" = some tm) (h3 : Dict.get? s "word-line-machine" = some wm)
    (h4 : Dict.get? s "separator-line-machine" = some sep) (h5 : Dict.get? s "left-boundary-machine" = some lb)
    (h6 : Dict.get? s "right-boundary-machine" = some rb) (h7 : Dict.get? s "single-boundary-machine" = some sb)
    (hw : Dict.get? s "get-word" = some tw) (hw' : Gives tw w) (hp : Dict.get? s "get-pos" = some tp) (hp' : Gives tp p)
    (hl : Dict.get? s "get-lemma" = some tl) (hl' : Gives tl l) (hc : Dict.get? s "get-colloc" = some tc) (hc' : Gives tc c)
    (hn : Dict.get? s ("get-" ++ String.ofList form) = some tn) (hn' : Gives tn n) :
    ∃ g, construct s = .ok g ∧ g.form = form ∧ g.wordMachine = wm ∧ g.tokenMachine = tm ∧ g.separator = sep ∧ g.left = lb ∧ g.right = rb ∧
      g.single = sb ∧ g.word = w ∧ g.pos = p ∧ g.lemma_ = l ∧ g.colloc = c ∧ g.node = n ∧ g.match_ = none := by
  have key : ∀ {k : String} {t : Str}, Dict.get? s k = some t → getKey s k = .ok t := by
    intro k t h; unfold getKey; rw [h]
  refine ⟨⟨form, tm, wm, sep, lb, rb, sb, w, p, l, c, n, none⟩, ?_, rfl, rfl, rfl, rfl, rfl, rfl, rfl, rfl, rfl, rfl, rfl, rfl, rfl⟩
  unfold construct
  simp only [key h1, key h2, key h3, key h4, key h5, key h6, key h7, funcOf_gives hw hw', funcOf_gives hp hp', funcOf_gives hl hl',
    funcOf_gives hc hc', okBind, funcOf_gives hn hn']
  rfl

theorem formGet_ok {m : Match} {ns : List Int} {ss : List Str} (h : HasGroups m ns ss) : formGet ns (some m) = .ok (join '/' ss) := by
  have h1 : ns.mapM (groupAt m) = .ok (ss.map some) := by
    induction h with
    | nil => rfl
    | cons hg _ ih =>
      rw [List.mapM_cons]
      rename_i z s zs ss _
      have : groupAt m z = .ok (some s) := by
        unfold groupAt group
        rw [if_neg (by have := hg.1; omega), hg.2]
      rw [this, List.map_cons]
      show (do let r ← zs.mapM (groupAt m); pure (some s :: r) : Except Err _) = _
      rw [ih]
      rfl
  have h2 : (ss.map some).mapM asStr = .ok ss := by
    clear h h1
    induction ss with
    | nil => rfl
    | cons s ss ih =>
      rw [List.map_cons, List.mapM_cons]
      show (do let r ← (ss.map some).mapM asStr; pure (s :: r) : Except Err _) = _
      rw [ih]
      rfl
  unfold formGet
  show (do let gs ← ns.mapM (groupAt m); let ss ← gs.mapM asStr; return join '/' ss : Except Err _) = _
  rw [h1]
  show (do let ss ← (ss.map some).mapM asStr; return join '/' ss : Except Err _) = _
  rw [h2]
  rfl

/-- **C201** (partial): a getter reads the groups whose numbers the settings give, joined with slashes; types are lemma and part of
speech, tokens word, part of speech, file and line; `get_item` gives the asked form.  Missing: `token_line_machine` (`C201_false`). -/
theorem C201_partial (g : Getter) {m : Match} {w p l : List Str} (hw : HasGroups m g.word w) (hp : HasGroups m g.pos p)
    (hl : HasGroups m g.lemma_ l) (fid lid : Str) :
    formGet g.word (some m) = .ok (join '/' w) ∧ formGet g.pos (some m) = .ok (join '/' p) ∧ formGet g.lemma_ (some m) = .ok (join '/' l) ∧
    getType g (some m) = .ok (join '/' l ++ "/".toList ++ join '/' p) ∧
    getToken g (some m) fid lid = .ok (join '/' w ++ "/".toList ++ join '/' p ++ "/".toList ++ fid ++ "/".toList ++ lid) ∧
    getItem g (some m) "type".toList = getType g (some m) ∧ getItem g (some m) "word".toList = .ok (join '/' w) ∧
    getItem g (some m) "lemma".toList = .ok (join '/' l) ∧
    ∀ form, form ≠ "type".toList → form ≠ "word".toList → form ≠ "lemma".toList → getItem g (some m) form = .error .value := by
  refine ⟨formGet_ok hw, formGet_ok hp, formGet_ok hl, ?_, ?_, rfl, ?_, ?_, ?_⟩
  · unfold getType
    rw [formGet_ok hl, formGet_ok hp]
    show Except.ok _ = Except.ok _
    simp
  · unfold getToken
    rw [formGet_ok hw, formGet_ok hp]
    show Except.ok _ = Except.ok _
    simp
  · unfold getItem
    rw [if_neg (by decide), if_pos rfl, formGet_ok hw]
  · unfold getItem
    rw [if_neg (by decide), if_neg (by decide), if_pos rfl, formGet_ok hl]
  · intro form h1 h2 h3
    unfold getItem
    rw [if_neg h1, if_neg h2, if_neg h3]

/-- **C201**: the formatter and the getter give the same types, if the format of types has the columns of the lemma and of the part of
speech. -/
theorem C201_agree (g : Getter) (f : Formatter) {m : Match} {p l : List Str} (hp : HasGroups m g.pos p) (hl : HasGroups m g.lemma_ l)
    (hp0 : p ≠ []) (hl0 : l ≠ []) (hf : f.typeIds = (g.lemma_ ++ g.pos).map Int.toNat) :
    getType g (some m) = Items.getType f m := by
  have key : ∀ {ns : List Int} {ss : List Str}, HasGroups m ns ss → (ns.map Int.toNat).mapM (group m) = .ok (ss.map some) := by
    intro ns ss h
    induction h with
    | nil => rfl
    | cons hg _ ih =>
      rename_i z s zs ss _
      rw [List.map_cons, List.mapM_cons]
      have : group m z.toNat = .ok (some s) := by
        unfold group
        rw [hg.2]
      rw [this]
      show (do let r ← (zs.map Int.toNat).mapM (group m); pure (some s :: r) : Except Err _) = _
      rw [ih]
      rfl
  have hstr : ∀ ss : List Str, (ss.map some).mapM asStr = .ok ss := by
    intro ss
    induction ss with
    | nil => rfl
    | cons s ss ih =>
      rw [List.map_cons, List.mapM_cons]
      show (do let r ← (ss.map some).mapM asStr; pure (s :: r) : Except Err _) = _
      rw [ih]
      rfl
  have hjoin : ∀ l : List Str, l ≠ [] → join '/' (l ++ p) = join '/' l ++ '/' :: join '/' p := by
    intro l hl
    induction l with
    | nil => exact absurd rfl hl
    | cons a l ih =>
      cases l with
      | nil => rw [List.singleton_append, join_cons '/' a hp0]; rfl
      | cons b l =>
        rw [List.cons_append, join_cons '/' a (by simp), ih (by simp), join_cons '/' a (by simp)]
        simp
  have h1 : getType g (some m) = .ok (join '/' l ++ '/' :: join '/' p) := by
    unfold getType
    rw [formGet_ok hl, formGet_ok hp]
    rfl
  have h2 := key (ns := g.lemma_ ++ g.pos) (ss := l ++ p) (List.rel_append hl hp)
  rw [h1]
  unfold Items.getType joinGroups
  rw [hf, h2]
  show _ = (do let ss ← ((l ++ p).map some).mapM asStr; return join '/' (ss ++ []) : Except Err _)
  rw [hstr]
  show _ = Except.ok (join '/' (l ++ p ++ []))
  rw [List.append_nil, hjoin l hl0]

/-- **C201 is false** for lines with file and line number added: `token_line_machine` never gives a match. -/
theorem C201_false (rx : Regex) (g : Getter) (line fid lid : Str) : tokenLine rx g line fid lid = .error .type := rfl

/-- **C201**: a line that the expression does not match: every property is an `AttributeError`, no empty string. -/
theorem C201_nomatch (rx : Regex) (g : Getter) {line : Str} (h : rx g.wordMachine line = none) (hw : g.word ≠ []) (hp : g.pos ≠ [])
    (hl : g.lemma_ ≠ []) : wordOf (initMachine rx g line) = .error .attribute ∧ posOf (initMachine rx g line) = .error .attribute ∧
      lemmaOf (initMachine rx g line) = .error .attribute := by
  unfold wordOf posOf lemmaOf initMachine
  rw [h]
  exact ⟨if_neg hw, if_neg hp, if_neg hl⟩

/-- Settings of a getter: word, part of speech and lemma are the first three groups. -/
def getterSettings : Settings := [("form", "lemma".toList), ("token-line-machine", "x".toList), ("word-line-machine", "y".toList),
  ("separator-line-machine", "</a>".toList), ("left-boundary-machine", "<s>".toList), ("right-boundary-machine", "</s>".toList),
  ("single-boundary-machine", "</s>".toList), ("get-word", "1".toList), ("get-pos", "2".toList), ("get-lemma", "3".toList),
  ("get-colloc", "3, 2".toList)]

/-- The hypotheses of `C201_partial` and `C201_agree`. -/
example : ∃ g, construct getterSettings = .ok g ∧ g.colloc = [3, 2] ∧
    HasGroups [none, some "girls".toList, some "N".toList, some "girl".toList] g.word ["girls".toList] ∧
    HasGroups [none, some "girls".toList, some "N".toList, some "girl".toList] g.pos ["N".toList] ∧
    HasGroups [none, some "girls".toList, some "N".toList, some "girl".toList] g.lemma_ ["girl".toList] ∧
    getType g (some [none, some "girls".toList, some "N".toList, some "girl".toList]) = .ok "girl/N".toList ∧
    ([3, 2] : List Nat) = (g.lemma_ ++ g.pos).map Int.toNat := by
  refine ⟨⟨"lemma".toList, "x".toList, "y".toList, "</a>".toList, "<s>".toList, "</s>".toList, "</s>".toList, [1], [2], [3], [3, 2], [3], none⟩,
    by decide +kernel, rfl, .cons ⟨by decide, by decide⟩ .nil, .cons ⟨by decide, by decide⟩ .nil, .cons ⟨by decide, by decide⟩ .nil, by decide +kernel, by decide⟩

/-- The hypotheses of `C201_settings`: how group numbers are written. -/
example : Gives "3, 2".toList [3, 2] :=
  ⟨["3".toList, " 2".toList], by decide, by simp, .cons ⟨[], [], fun _ h => (nomatch h), fun _ h => (nomatch h), by decide +kernel⟩
    (.cons ⟨[' '], [], by intro c hc; rw [List.mem_singleton.1 hc]; decide, fun _ h => (nomatch h), by decide +kernel⟩ .nil)⟩

/-! ### Sentences -/

/-- **C202** (partial): a new sentence has the lines of its text that do not begin with `<`, in order.  Missing: parsing again
(`C202_false`). -/
theorem C202_partial {ls : List Str} (hne : ls ≠ []) (hn : ∀ l ∈ ls, '\n' ∉ l) :
    (newSent (join '\n' ls)).content = ls.filter (fun l => decide (l.head? ≠ some '<')) ∧ (newSent (join '\n' ls)).text = join '\n' ls := by
  refine ⟨?_, rfl⟩
  unfold newSent Sent.parse
  simp only [Option.getD_none, List.nil_append]
  rw [split_join '\n' ls hne hn]
  refine List.filter_congr fun l _ => ?_
  unfold isTag
  simp

/-- **C202 is false** for sentences that are parsed again, which the constructor has already done: the lines are there twice. -/
theorem C202_false (s : Str) : (Sent.parse (newSent s) none).content = (newSent s).content ++ (newSent s).content := rfl

/-- **C202**: a text that ends with a line end has an empty line at its end. -/
theorem C202_last {ls : List Str} (hn : ∀ l ∈ ls, '\n' ∉ l) :
    (newSent (join '\n' (ls ++ [[]]))).content = ls.filter (fun l => decide (l.head? ≠ some '<')) ++ [[]] := by
  rw [(C202_partial (ls := ls ++ [[]]) (by simp) (by
    intro l hl
    rcases List.mem_append.1 hl with h | h
    · exact hn l h
    · rw [List.mem_singleton.1 h]; exact List.not_mem_nil)).1, List.filter_append]
  rfl

/-- The hypotheses of `C202_partial`: a tag and two words. -/
example : (["<s>".toList, "the\tD".toList, "cat\tN".toList] : List Str) ≠ [] ∧
    (∀ l ∈ (["<s>".toList, "the\tD".toList, "cat\tN".toList] : List Str), '\n' ∉ l) ∧
    (newSent "<s>\nthe\tD\ncat\tN".toList).content = ["the\tD".toList, "cat\tN".toList] :=
  ⟨by simp, by decide, by decide +kernel⟩

end Verif.Items.Old
