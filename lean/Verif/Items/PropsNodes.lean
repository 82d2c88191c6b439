import Verif.Items.NodeLemmas

/-!
# C89-C95: type and token nodes
-/

namespace Verif.Items

open Verif.Py
open Verif.Vocab.Plain (Str)

/-- A component that a type format may have. -/
def TypeComponent (c : Str) : Prop := c = "word".toList ∨ c = "lemma".toList ∨ c = "pos".toList

/-- A component that a token format may have. -/
def TokenComponent (c : Str) : Prop := TypeComponent c ∨ c = "fid".toList ∨ c = "lid".toList

theorem mem_typeNames (c : Str) : c ∈ typeNames ↔ TypeComponent c := by simp [typeNames, TypeComponent]

theorem mem_tokenNames (c : Str) : c ∈ tokenNames ↔ TokenComponent c := by
  rw [TokenComponent, ← mem_typeNames]
  simp [tokenNames]

/-! ## C89: type strings -/

theorem typeNew_str {fmt str : Str} (hf : fmt ≠ []) (hs : str ≠ []) (w l p : Option Str) (toks : List TokenN) :
    typeNew none (some fmt) (some str) w l p toks =
      (takeApart typeNames str fmt (wordsOf w l p)).bind (fun st =>
        .ok ⟨Dict.set (itemOfWords st none none) "format".toList (some fmt), toks⟩) := by
  cases fmt with
  | nil => exact absurd rfl hf
  | cons c cs =>
    cases str with
    | nil => exact absurd rfl hs
    | cons d ds => rfl

/-- C89: a type node is built from a string exactly if string and format have as many parts and the format names
only word, lemma and pos; otherwise it is a `ValueError`. -/
theorem C89_built (fmt str : Str) (hf : fmt ≠ []) (hs : str ≠ []) (w l p : Option Str) (toks : List TokenN) :
    ((∃ n, typeNew none (some fmt) (some str) w l p toks = .ok n) ↔
      (split '/' str).length = (split '/' fmt).length ∧ ∀ c ∈ split '/' fmt, TypeComponent c) ∧
    (∀ e, typeNew none (some fmt) (some str) w l p toks = .error e → e = .value) := by
  rw [typeNew_str hf hs]
  simp only [← mem_typeNames]
  rw [← takeApart_ok_iff (st := wordsOf w l p)]
  cases h : takeApart typeNames str fmt (wordsOf w l p) with
  | ok st => simp [Except.bind]
  | error e =>
    refine ⟨by simp [Except.bind], ?_⟩
    intro e' he
    rw [← Except.error.inj he]
    exact takeApart_error h

theorem typeNew_get {fmt str : Str} {w l p : Option Str} {toks : List TokenN} {n : TypeN}
    (hf : fmt ≠ []) (hs : str ≠ []) (h : typeNew none (some fmt) (some str) w l p toks = .ok n) :
    Dict.get? n.attrs "format".toList = some (some fmt) ∧ Dict.get? n.attrs "type_fmt".toList = some none ∧
      n.tokens = toks ∧ ∃ st, takeApart typeNames str fmt (wordsOf w l p) = .ok st ∧
      ∀ c ∈ typeNames, Dict.get? n.attrs c = Dict.get? st c := by
  rw [typeNew_str hf hs] at h
  obtain ⟨st, hst, h⟩ := bind_ok h
  obtain rfl := Except.ok.inj h
  refine ⟨?_, ?_, rfl, st, hst, ?_⟩
  · simp only [Dict.get?_set, if_true]
  · simp only [itemOfWords, Dict.get?_set]
    rw [if_neg (by decide), if_neg (by decide), if_true]
  · intro c hc
    obtain ⟨h1, h2, h3, _⟩ := typeNames_ne hc
    simp only [itemOfWords, Dict.get?_set, if_neg h1, if_neg h2, if_neg h3]

/-- C89, partial: the node's type is the string it was built from, if the format names no component twice and the
string is not empty.  Missing: `C89_false_twice`, `C89_false_empty`; and strings that the formatter made of
columns with a `/` (`C89_false_slash`). -/
theorem C89_partial (fmt str : Str) (hf : fmt ≠ []) (hs : str ≠ []) (w l p : Option Str) (toks : List TokenN) (n : TypeN)
    (h : typeNew none (some fmt) (some str) w l p toks = .ok n) (hn : (split '/' fmt).Nodup) :
    n.type = .ok str ∧ n.tokens = toks := by
  obtain ⟨h1, _, h2, st, hst, hg⟩ := typeNew_get hf hs h
  refine ⟨?_, h2⟩
  unfold TypeN.type
  rw [h1]
  simp only
  rw [render_ok]
  refine ⟨split '/' str, ?_, (join_split '/' str).symm⟩
  have hall := (takeApart_ok_iff.1 ⟨_, hst⟩).2
  have hr := takeApart_get hst hn
  rw [List.forall₂_iff_zip] at hr ⊢
  refine ⟨hr.1, fun {a b} hab => ?_⟩
  rw [hg a (hall a (List.of_mem_zip hab).1)]
  exact hr.2 hab

example : ∃ n, typeNew none (some "lemma/pos".toList) (some "be/V".toList) none none none [] = .ok n ∧
    n.type = .ok "be/V".toList := ⟨_, rfl, by decide⟩

/-- C89 is false for a format that names a component twice. -/
theorem C89_false_twice : ∃ n, typeNew none (some "word/word".toList) (some "a/b".toList) none none none [] = .ok n ∧
    n.type = .ok "b/b".toList := ⟨_, rfl, by decide⟩

/-- C89 is false for the empty string: the node has no type. -/
theorem C89_false_empty : ∃ n, typeNew none (some "lemma".toList) (some []) none none none [] = .ok n ∧
    n.type = .error .key := ⟨_, rfl, by decide⟩

/-- C89 is false for the type string of a line whose lemma has a `/`: no node can be built from it. -/
theorem C89_false_slash : ∃ s' f m, construct exampleSettings = .ok (s', f) ∧ getType f m = .ok "1/2/NUM".toList ∧
    typeNew none (some f.typeFormat) (some "1/2/NUM".toList) none none none [] = .error .value :=
  ⟨_, _, [some [], some "1/2".toList, some "1/2".toList, some "NUM".toList], rfl, by decide, by decide⟩

/-! ## C90: nodes of lines -/

theorem itemOfMatch_get {f : Formatter} {m : Match} {a : Attrs}
    (ha : itemOfMatch m f = .ok a) {c : Str} (hc : c ∈ typeNames) :
    ∃ v, Dict.get? a c = some v ∧ m[(f.colids.get? c).getD 0]? = some v := by
  unfold itemOfMatch at ha
  obtain ⟨w, hw, ha⟩ := bind_ok ha
  obtain ⟨l, hl, ha⟩ := bind_ok ha
  obtain ⟨p, hp, ha⟩ := bind_ok ha
  obtain ⟨tf, htf, ha⟩ := bind_ok ha
  obtain ⟨cf, hcf, ha⟩ := bind_ok ha
  obtain rfl := Except.ok.inj ha
  have hget : ∀ {c : Str} {v : Option Str}, c ∈ typeNames → get f m c [] [] = .ok v →
      m[(f.colids.get? c).getD 0]? = some v := by
    intro c v hc hg
    have hne : c ≠ "type".toList ∧ c ≠ "colloc".toList ∧ c ≠ "token".toList := by
      simp only [typeNames, List.mem_cons, List.not_mem_nil, or_false] at hc
      rcases hc with rfl | rfl | rfl <;> decide
    unfold get group at hg
    rw [if_neg hne.1, if_neg hne.2.1, if_neg hne.2.2] at hg
    split at hg
    · rename_i g hm
      rw [hm, Except.ok.inj hg]
    · exact (nomatch hg)
  have hc' := hc
  obtain ⟨h1, h2, _⟩ := typeNames_ne hc
  simp only [itemOfWords, Dict.get?_set, if_neg h1, if_neg h2]
  simp only [typeNames, List.mem_cons, List.not_mem_nil, or_false] at hc'
  rcases hc' with rfl | rfl | rfl
  · exact ⟨w, rfl, hget hc hw⟩
  · exact ⟨l, rfl, hget hc hl⟩
  · exact ⟨p, rfl, hget hc hp⟩

/-- The values of the components of a node that was read from a line are those of its columns. -/
theorem components_of_match {s s' : Settings} {f : Formatter} (h : construct s = .ok (s', f)) {m : Match} {a : Attrs}
    (ha : itemOfMatch m f = .ok a) {cols : List Str} (hc : ColumnsOf s cols) {c : Str} (hcn : c ∈ typeNames)
    (hcc : ∃ i, ColumnAt cols c i) (val : Str) : Dict.get? a c = some (some val) ↔ Reads cols m c val := by
  obtain ⟨cols', _, _, _, hcols, _, _, _, hids, _⟩ := construct_ok h
  obtain rfl := columnsOf_unique hc hcols
  obtain ⟨i, hi⟩ := hcc
  obtain ⟨v, h1, h2⟩ := itemOfMatch_get ha hcn
  rw [hids, (colids_get? cols c (i + 1)).2 ⟨i, rfl, hi⟩] at h2
  simp only [Option.getD_some] at h2
  rw [h1]
  constructor
  · intro he
    exact ⟨i, hi, by rw [h2, Option.some.inj he]⟩
  · rintro ⟨j, hj, hm⟩
    rw [columnAt_unique hj hi, h2] at hm
    rw [Option.some.inj hm]

theorem forall₂_congr_left {α β : Type} {R S : α → β → Prop} : ∀ {l : List α} {r : List β},
    (∀ a ∈ l, ∀ b, R a b ↔ S a b) → (List.Forall₂ R l r ↔ List.Forall₂ S l r)
  | [], r, _ => by constructor <;> (intro h; cases h; exact .nil)
  | a :: l, r, h => by
    constructor
    · intro hr
      cases hr with
      | cons h1 h2 =>
        exact .cons ((h a (by simp) _).1 h1) ((forall₂_congr_left (fun x hx => h x (by simp [hx]))).1 h2)
    · intro hr
      cases hr with
      | cons h1 h2 =>
        exact .cons ((h a (by simp) _).2 h1) ((forall₂_congr_left (fun x hx => h x (by simp [hx]))).2 h2)

theorem forall₂_append_inv {α β : Type} {R : α → β → Prop} : ∀ {l l' : List α} {r : List β},
    List.Forall₂ R (l ++ l') r → ∃ r1 r2, List.Forall₂ R l r1 ∧ List.Forall₂ R l' r2 ∧ r = r1 ++ r2
  | [], _, r, h => ⟨[], r, .nil, h, rfl⟩
  | _ :: _, _, _, .cons h1 h2 => by
    obtain ⟨r1, r2, a, b, rfl⟩ := forall₂_append_inv h2
    exact ⟨_ :: r1, r2, .cons h1 a, b, rfl⟩

theorem ids_columnAt {cols parts : List Str} {ids : List Nat} (h : Ids cols parts ids) :
    ∀ c ∈ parts, ∃ i, ColumnAt cols c i := by
  unfold Ids at h
  induction h with
  | nil => simp
  | cons h _ ih =>
    intro c hc
    rcases List.mem_cons.1 hc with rfl | hc
    · obtain ⟨i, _, hi⟩ := h; exact ⟨i, hi⟩
    · exact ih c hc

/-- C90, partial: a type node read from a line has the type that the formatter gives for the line, and an item
node has its type and its collocate string, if the format only uses the columns word, lemma and pos.  Missing:
other columns (`C90_false_column`). -/
theorem C90_partial_type (s s' : Settings) (f : Formatter) (h : construct s = .ok (s', f)) (m : Match)
    (x y w l p : Option Str) (toks : List TokenN) (n : TypeN) (hn : typeNew (some (m, f)) x y w l p toks = .ok n)
    (hc : ∀ c ∈ split '/' f.typeFormat, TypeComponent c) (v : Str) :
    n.type = .ok v ↔ getType f m = .ok v := by
  unfold typeNew at hn
  obtain ⟨a, ha, hn⟩ := bind_ok hn
  obtain rfl := Except.ok.inj hn
  obtain ⟨cols, tyf, _, _, hcols, _, _, _, _, h1, _, _, _, _, _, _, htf, _⟩ := construct_ok h
  unfold TypeN.type
  simp only [Dict.get?_set, if_true]
  rw [getType, rendered_iff h1, render_ok, htf]
  rw [htf] at hc
  unfold Rendered
  simp only [List.append_nil]
  refine exists_congr fun vals => and_congr_left fun _ => forall₂_congr_left ?_
  intro c hcm b
  rw [Dict.get?_set, if_neg (typeNames_ne ((mem_typeNames c).2 (hc c hcm))).2.2.1]
  exact components_of_match h ha hcols ((mem_typeNames c).2 (hc c hcm)) (ids_columnAt h1 c hcm) b

/-- C90, partial: item nodes. -/
theorem C90_partial_item (s s' : Settings) (f : Formatter) (h : construct s = .ok (s', f)) (m : Match) (a : Attrs)
    (ha : itemOfMatch m f = .ok a) (v : Str) :
    ((∀ c ∈ split '/' f.typeFormat, TypeComponent c) → f.typeFormat ≠ [] →
      (toType a none = .ok v ↔ getType f m = .ok v)) ∧
    ((∀ c ∈ split '/' f.collocFormat, TypeComponent c) → f.collocFormat ≠ [] →
      (toColloc a none = .ok v ↔ getColloc f m = .ok v)) := by
  obtain ⟨cols, tyf, _, cof, hcols, hty, _, hco, _, h1, _, h3, hs', hset, _, _, htf, _, hcf⟩ := construct_ok h
  have ha' := ha
  unfold itemOfMatch at ha'
  obtain ⟨w, hw, ha'⟩ := bind_ok ha'
  obtain ⟨l, hl, ha'⟩ := bind_ok ha'
  obtain ⟨p, hp, ha'⟩ := bind_ok ha'
  obtain ⟨tf, htf', ha'⟩ := bind_ok ha'
  obtain ⟨cf, hcf', ha'⟩ := bind_ok ha'
  have ha' := Except.ok.inj ha'
  have hkey : ∀ {t : Settings} {k : String} {v : Str}, getKey t k = .ok v → Dict.get? t k = some v := by
    intro t k v h
    unfold getKey at h
    split at h
    · rename_i w hw; rw [hw, Except.ok.inj h]
    · exact (nomatch h)
  have e1 : tf = f.typeFormat := by
    have := hkey htf'
    rw [hset, (C87_partial s s' f h).1 "type" (by decide), hty] at this
    rw [htf, Option.some.inj this]
  have e2 : cf = f.collocFormat := by
    have := hkey hcf'
    rw [hset] at this
    rw [hcf, hco]
    cases hg : Dict.get? s "colloc" with
    | none =>
      rw [(C87_false s s' f h hg).1, hty] at this
      exact (Option.some.inj this).symm
    | some c =>
      rw [(C87_partial s s' f h).2 (by rw [hg]; rfl), hg] at this
      exact (Option.some.inj this).symm
  constructor
  · intro hc hne
    have hg : (Dict.get? a "type_fmt".toList).join = some f.typeFormat := by
      rw [← ha', itemOfWords, Dict.get?_set, if_neg (by decide), Dict.get?_set, if_pos rfl, e1]; rfl
    have : toType a none = render a f.typeFormat := by
      unfold toType
      simp only [truthy, Bool.false_eq_true, if_false, hg]
      cases hfm : f.typeFormat with
      | nil => exact absurd hfm hne
      | cons => rfl
    rw [this, getType, rendered_iff h1, render_ok, htf]
    rw [htf] at hc
    unfold Rendered
    simp only [List.append_nil]
    refine exists_congr fun vals => and_congr_left fun _ => forall₂_congr_left ?_
    intro c hcm b
    exact components_of_match h ha hcols ((mem_typeNames c).2 (hc c hcm)) (ids_columnAt h1 c hcm) b
  · intro hc hne
    have hg : (Dict.get? a "colloc_fmt".toList).join = some f.collocFormat := by
      rw [← ha', itemOfWords, Dict.get?_set, if_pos rfl, e2]; rfl
    have : toColloc a none = render a f.collocFormat := by
      unfold toColloc
      simp only [truthy, Bool.false_eq_true, if_false, hg]
      cases hfm : f.collocFormat with
      | nil => exact absurd hfm hne
      | cons => rfl
    rw [this, getColloc, rendered_iff h3, render_ok, hcf]
    rw [hcf] at hc
    unfold Rendered
    simp only [List.append_nil]
    refine exists_congr fun vals => and_congr_left fun _ => forall₂_congr_left ?_
    intro c hcm b
    exact components_of_match h ha hcols ((mem_typeNames c).2 (hc c hcm)) (ids_columnAt h3 c hcm) b

/-- C90, formats given by the caller: a format that is not empty is used instead of that of the node, an empty one is as good as
none, and without any there is a `ValueError`. -/
theorem C90_given_format (a : Attrs) (fmt : Str) (hne : fmt ≠ []) :
    (∀ v, (toType a (some fmt) = .ok v ↔
      ∃ vals, List.Forall₂ (fun c b => Dict.get? a c = some (some b)) (split '/' fmt) vals ∧ v = join '/' vals)) ∧
    toColloc a (some fmt) = toType a (some fmt) ∧
    toType a (some []) = toType a none ∧ toColloc a (some []) = toColloc a none ∧
    (Dict.get? a "type_fmt".toList = none → toType a (some []) = .error .value) ∧
    (Dict.get? a "colloc_fmt".toList = none → toColloc a (some []) = .error .value) := by
  obtain ⟨c, cs, rfl⟩ := List.exists_cons_of_ne_nil hne
  refine ⟨fun v => ?_, rfl, rfl, rfl, fun h => ?_, fun h => ?_⟩
  · have : toType a (some (c :: cs)) = render a (c :: cs) := rfl
    rw [this, render_ok]
  · unfold toType; rw [h]; rfl
  · unfold toColloc; rw [h]; rfl

example : toType [(['w'], some ['a']), (['p'], some ['N'])] (some ['w', '/', 'p']) = .ok ['a', '/', 'N'] := by decide

/-- C90, partial: a token node read from a line has the token that the formatter gives, if the token format
consists of word, lemma and pos, and then `fid` and `lid`. -/
theorem C90_partial_token (s s' : Settings) (f : Formatter) (h : construct s = .ok (s', f)) (m : Match)
    (x y w p l : Option Str) (fid lid : Str) (lc rc : Option (List Attrs)) (n : TokenN)
    (hn : tokenNew x y (some (m, f)) fid lid w p l lc rc = .ok n) (parts : List Str)
    (hp : split '/' f.tokenFormat = parts ++ ["fid".toList, "lid".toList])
    (hc : ∀ c ∈ parts, TypeComponent c) (v : Str) : n.token = .ok v ↔ getToken f m fid lid = .ok v := by
  unfold tokenNew at hn
  obtain ⟨a, ha, hn⟩ := bind_ok hn
  obtain rfl := Except.ok.inj hn
  obtain ⟨cols, _, tof, _, hcols, _, _, _, _, _, h2, _, _, _, _, _, _, htf, _⟩ := construct_ok h
  have hparts : (split '/' tof).dropLast.dropLast = parts := by
    rw [← htf, hp]
    have : parts ++ ["fid".toList, "lid".toList] = (parts ++ ["fid".toList]) ++ ["lid".toList] := by simp
    rw [this, List.dropLast_concat, List.dropLast_concat]
  rw [hparts] at h2
  have hfid : ∀ c, Dict.get? (finish a (some fid) (some lid) f.tokenFormat) c =
      if "format".toList = c then some (some f.tokenFormat) else if "lid".toList = c then some (some lid)
      else if "fid".toList = c then some (some fid) else Dict.get? a c := by
    intro c
    unfold finish
    simp only [Dict.get?_set]
  unfold TokenN.token
  simp only [hfid, if_true]
  rw [getToken, rendered_iff h2, render_ok, hp]
  simp only [hfid]
  unfold Rendered
  have key : ∀ c ∈ parts, ∀ b, ((if "format".toList = c then some (some f.tokenFormat)
      else if "lid".toList = c then some (some lid) else if "fid".toList = c then some (some fid)
      else Dict.get? a c) = some (some b)) ↔ Reads cols m c b := by
    intro c hcm b
    obtain ⟨_, _, n1, n2, n3⟩ := typeNames_ne ((mem_typeNames c).2 (hc c hcm))
    rw [if_neg n1, if_neg n2, if_neg n3]
    exact components_of_match h ha hcols ((mem_typeNames c).2 (hc c hcm)) (ids_columnAt h2 c hcm) b
  constructor
  · rintro ⟨vals, hv, rfl⟩
    obtain ⟨v1, v2, hv1, hv2, rfl⟩ := forall₂_append_inv hv
    refine ⟨v1, (forall₂_congr_left key).1 hv1, ?_⟩
    cases hv2 with
    | cons e1 hv2 =>
      cases hv2 with
      | cons e2 hv2 =>
        cases hv2
        rw [if_neg (by decide), if_neg (by decide), if_pos rfl] at e1
        rw [if_neg (by decide), if_pos rfl] at e2
        rw [Option.some.inj (Option.some.inj e1), Option.some.inj (Option.some.inj e2)]
  · rintro ⟨vals, hv, rfl⟩
    refine ⟨vals ++ [fid, lid], ?_, rfl⟩
    refine List.rel_append ((forall₂_congr_left key).2 hv) (.cons ?_ (.cons ?_ .nil))
    · rw [if_neg (by decide), if_neg (by decide), if_pos rfl]
    · rw [if_neg (by decide), if_pos rfl]

example : ∃ s' f n, construct exampleSettings = .ok (s', f) ∧
    tokenNew none none (some ([some [], some "is".toList, some "be".toList, some "V".toList], f)) "f1".toList "3".toList
      none none none none none = .ok n ∧ n.token = .ok "is/V/f1/3".toList ∧
    split '/' f.tokenFormat = ["word".toList, "pos".toList] ++ ["fid".toList, "lid".toList] :=
  ⟨_, _, _, rfl, rfl, by decide, by decide⟩

/-- C90 is false if a format uses another column: the formatter gives the type, and the node has none. -/
theorem C90_false_column : ∃ s s' f m n, construct s = .ok (s', f) ∧ getType f m = .ok "be/X".toList ∧
    typeNew (some (m, f)) none none none none none [] = .ok n ∧ n.type = .error .key :=
  ⟨Dict.set (Dict.set exampleSettings "line-format" "lemma,ner,word,pos".toList) "type" "lemma/ner".toList, _, _,
    [some [], some "be".toList, some "X".toList, some "is".toList, some "V".toList], _, rfl, by decide, rfl, by decide⟩

/-- C90 is false if the token format ends in another order: the formatter appends file and line whatever the last
two components are. -/
theorem C90_false_order : ∃ s s' f m n, construct s = .ok (s', f) ∧
    getToken f m "f1".toList "3".toList = .ok "is/f1/3".toList ∧
    tokenNew none none (some (m, f)) "f1".toList "3".toList none none none none none = .ok n ∧
    n.token = .ok "is/3/f1".toList :=
  ⟨Dict.set exampleSettings "token" "word/lid/fid".toList, _, _,
    [some [], some "is".toList, some "be".toList, some "V".toList], _, rfl, by decide, rfl, by decide⟩

/-! ## C91: token strings -/

/-- C91, partial: the node's token is the string it was built from, if the format names no component twice.
Missing: the tokens of files in sub-directories (`C91_false`). -/
theorem C91_partial (fmt str : Str) (hf : fmt ≠ []) (hs : str ≠ []) (w p l : Option Str) (fid lid : Str)
    (lc rc : Option (List Attrs)) (hn : (split '/' fmt).Nodup) :
    (∀ n, tokenNew (some str) (some fmt) none fid lid w p l lc rc = .ok n → n.token = .ok str) ∧
    ((∃ n, tokenNew (some str) (some fmt) none fid lid w p l lc rc = .ok n) ↔
      (split '/' str).length = (split '/' fmt).length ∧ ∀ c ∈ split '/' fmt, TokenComponent c) := by
  have hstr : tokenNew (some str) (some fmt) none fid lid w p l lc rc =
      (takeApart tokenNames str fmt (wordsOf w l p ++ [("fid".toList, some fid), ("lid".toList, some lid)])).bind
        (fun st => .ok ⟨finish (itemOfWords (st.filter (fun e => e.1 ∈ typeNames)) none none)
          (Dict.get? st "fid".toList).join (Dict.get? st "lid".toList).join fmt, lc, rc⟩) := by
    cases fmt with
    | nil => exact absurd rfl hf
    | cons c cs =>
      cases str with
      | nil => exact absurd rfl hs
      | cons d ds => rfl
  rw [hstr]
  constructor
  · intro n h
    obtain ⟨st, hst, h⟩ := bind_ok h
    obtain rfl := Except.ok.inj h
    have hwf : Dict.WF st := by
      have hw0 : Dict.WF (wordsOf w l p ++ [("fid".toList, some fid), ("lid".toList, some lid)]) := by
        unfold Dict.WF Dict.keys wordsOf
        simp only [List.cons_append, List.nil_append, List.map_cons, List.map_nil]
        decide
      have : ∀ (pairs : List (Str × Str)) (a b : Attrs), Dict.WF a → assign tokenNames pairs a = .ok b → Dict.WF b := by
        intro pairs
        induction pairs with
        | nil => intro a b ha h; rw [← Except.ok.inj h]; exact ha
        | cons q pairs ih =>
          intro a b ha h
          rw [assign] at h
          split at h
          · exact ih _ _ (Dict.WF_set ha _ _) h
          · exact (nomatch h)
      unfold takeApart at hst
      split at hst
      · exact (nomatch hst)
      · exact this _ _ _ hw0 hst
    have hall := (takeApart_ok_iff.1 ⟨_, hst⟩).2
    have hr := takeApart_get hst hn
    have hget : ∀ c ∈ tokenNames, ∀ val, Dict.get? st c = some (some val) →
        Dict.get? (finish (itemOfWords (st.filter (fun e => e.1 ∈ typeNames)) none none)
          (Dict.get? st "fid".toList).join (Dict.get? st "lid".toList).join fmt) c = some (some val) := by
      intro c hc val hv
      unfold finish
      simp only [Dict.get?_set]
      rcases List.mem_append.1 hc with hc | hc
      · obtain ⟨n1, n2, n3, n4, n5⟩ := typeNames_ne hc
        rw [if_neg n3, if_neg n5, if_neg n4]
        simp only [itemOfWords, Dict.get?_set, if_neg n1, if_neg n2]
        rw [Dict.get?_filter hwf, hv]
        simp [Option.filter, hc]
      · simp only [List.mem_cons, List.not_mem_nil, or_false] at hc
        rcases hc with rfl | rfl
        · rw [if_neg (by decide), if_neg (by decide), if_pos rfl, hv]; rfl
        · rw [if_neg (by decide), if_pos rfl, hv]; rfl
    have hfm : Dict.get? (finish (itemOfWords (st.filter (fun e => e.1 ∈ typeNames)) none none)
          (Dict.get? st "fid".toList).join (Dict.get? st "lid".toList).join fmt) "format".toList = some (some fmt) := by
      unfold finish
      rw [Dict.get?_set, if_pos rfl]
    unfold TokenN.token
    simp only [hfm]
    rw [render_ok]
    refine ⟨split '/' str, ?_, (join_split '/' str).symm⟩
    rw [List.forall₂_iff_zip] at hr ⊢
    exact ⟨hr.1, fun {a b} hab => hget a (hall a (List.of_mem_zip hab).1) b (hr.2 hab)⟩
  · simp only [← mem_tokenNames]
    rw [← takeApart_ok_iff (st := wordsOf w l p ++ [("fid".toList, some fid), ("lid".toList, some lid)])]
    cases takeApart tokenNames str fmt (wordsOf w l p ++ [("fid".toList, some fid), ("lid".toList, some lid)]) with
    | ok st => simp [Except.bind]
    | error e => simp [Except.bind]

example : ∃ n, tokenNew (some "is/V/f1/3".toList) (some "word/pos/fid/lid".toList) none [] [] none none none none none
    = .ok n ∧ n.token = .ok "is/V/f1/3".toList := ⟨_, rfl, by decide⟩

/-- C91 is false: the token of a line in a file of a sub-directory cannot be read back. -/
theorem C91_false (s s' : Settings) (f : Formatter) (h : construct s = .ok (s', f)) (m : Match) (fid lid v : Str)
    (hfid : '/' ∈ fid) (hv : getToken f m fid lid = .ok v) (hp : 2 ≤ (split '/' f.tokenFormat).length)
    (x y : Str) (w p l : Option Str) (lc rc : Option (List Attrs)) :
    tokenNew (some v) (some f.tokenFormat) none x y w p l lc rc = .error .value := by
  obtain ⟨cols, _, tof, _, hcols, _, _, _, _, _, h2, _, _, _, _, _, _, htf, _⟩ := construct_ok h
  rw [getToken, rendered_iff h2] at hv
  obtain ⟨vals, hvals, rfl⟩ := hv
  have hlen : vals.length + 2 = (split '/' f.tokenFormat).length := by
    have := hvals.length_eq
    rw [List.length_dropLast, List.length_dropLast, ← htf] at this
    omega
  have hne : (split '/' (join '/' (vals ++ [fid, lid]))).length ≠ (split '/' f.tokenFormat).length := by
    have hcount : 0 < fid.count '/' := List.count_pos_iff.2 hfid
    rw [split_length, join_count '/' _ (by simp), ← hlen]
    simp only [List.map_append, List.sum_append, List.map_cons, List.sum_cons, List.length_append, List.length_cons,
      List.length_nil, List.map_nil, List.sum_nil]
    omega
  have hv : ∃ d ds, join '/' (vals ++ [fid, lid]) = d :: ds := by
    cases hj : join '/' (vals ++ [fid, lid]) with
    | cons d ds => exact ⟨d, ds, rfl⟩
    | nil =>
      have := join_count '/' (vals ++ [fid, lid]) (by simp)
      rw [hj] at this
      simp at this
      omega
  have hfm : ∃ c cs, f.tokenFormat = c :: cs := by
    cases hfm : f.tokenFormat with
    | cons c cs => exact ⟨c, cs, rfl⟩
    | nil => rw [hfm] at hp; simp [split] at hp
  obtain ⟨d, ds, hd⟩ := hv
  obtain ⟨c, cs, hcs⟩ := hfm
  rw [hd, hcs] at hne ⊢
  unfold tokenNew takeApart
  simp only [if_pos hne]
  rfl

example : ∃ s' f, construct exampleSettings = .ok (s', f) ∧ '/' ∈ "news/f1".toList ∧
    getToken f [some [], some "is".toList, some "be".toList, some "V".toList] "news/f1".toList "3".toList
      = .ok "is/V/news/f1/3".toList ∧ 2 ≤ (split '/' f.tokenFormat).length := ⟨_, _, rfl, by decide, by decide, by decide⟩

/-! ## C92: token identifiers -/

/-- C92, partial: two lines of the corpus have the same token only if they are the same line of files with the same
name up to the extension — so, of the same file, if all files have the same extension.  Missing: files that differ
in the extension (`C92_false_extension`) and columns with a `/` (`C92_false_slash`). -/
theorem C92_partial (s s' : Settings) (f : Formatter) (h : construct s = .ok (s', f)) (m m' : Match)
    (hm : ∀ g, some g ∈ m.tail → '/' ∉ g) (hm' : ∀ g, some g ∈ m'.tail → '/' ∉ g) (path path' : Str) (lid lid' : Nat)
    (v : Str) (hv : tokenOf f m path lid = .ok v) (hv' : tokenOf f m' path' lid' = .ok v) :
    lid = lid' ∧ splitext path = splitext path' ∧
    (∀ r r' ext, '.' ∉ ext → '/' ∉ ext → path = r ++ '.' :: ext → path' = r' ++ '.' :: ext →
      (∃ c ∈ (split '/' r).getLastD [], c ≠ '.') → (∃ c ∈ (split '/' r').getLastD [], c ≠ '.') → path = path') := by
  obtain ⟨cols, _, tof, _, hcols, _, _, _, _, _, h2, _, _, _, _, _, _, htf, _⟩ := construct_ok h
  unfold tokenOf at hv hv'
  rw [getToken, rendered_iff h2] at hv hv'
  obtain ⟨vals, hvals, rfl⟩ := hv
  obtain ⟨vals', hvals', he⟩ := hv'
  have hno : ∀ {m : Match} {parts vs : List Str}, (∀ g, some g ∈ m.tail → '/' ∉ g) →
      List.Forall₂ (Reads cols m) parts vs → ∀ x ∈ vs, '/' ∉ x := by
    intro m parts vs hm hr
    induction hr with
    | nil => simp
    | cons h1 _ ih =>
      intro x hx
      rcases List.mem_cons.1 hx with rfl | hx
      · obtain ⟨i, _, hi⟩ := h1
        refine hm _ (List.mem_of_getElem? (i := i) ?_)
        rw [List.getElem?_tail]
        exact hi
      · exact ih x hx
  obtain ⟨_, e1, e2⟩ := join_inj (hno hm hvals) (hno hm' hvals')
    (hvals.length_eq.symm.trans hvals'.length_eq) (natStr_noSlash lid) (natStr_noSlash lid') he
  refine ⟨natStr_inj e2, e1, ?_⟩
  intro r r' ext h1 h2 hr hr' h3 h4
  rw [hr, hr', splitext_ext r ext h1 h2 h3, splitext_ext r' ext h1 h2 h4] at e1
  rw [hr, hr', e1]

example : ∃ s' f, construct exampleSettings = .ok (s', f) ∧
    tokenOf f [some [], some "is".toList, some "be".toList, some "V".toList] "news/a.b.txt".toList 12
      = .ok "is/V/news/a.b/12".toList ∧ (∃ c ∈ (split '/' "news/a.b".toList).getLastD [], c ≠ '.') :=
  ⟨_, _, rfl, by decide +kernel, 'a', by decide, by decide⟩

/-- C92 is false: the same line of two files that differ in their extension. -/
theorem C92_false_extension (f : Formatter) (m : Match) (r ext ext' : Str) (lid : Nat) (h1 : '.' ∉ ext) (h2 : '/' ∉ ext)
    (h3 : '.' ∉ ext') (h4 : '/' ∉ ext') (h5 : ∃ c ∈ (split '/' r).getLastD [], c ≠ '.') :
    tokenOf f m (r ++ '.' :: ext) lid = tokenOf f m (r ++ '.' :: ext') lid := by
  unfold tokenOf
  rw [splitext_ext r ext h1 h2 h5, splitext_ext r ext' h3 h4 h5]

/-- C92 is false: a column with a `/`. -/
theorem C92_false_slash : ∃ s s' f m m' v, construct s = .ok (s', f) ∧
    tokenOf f m "c.txt".toList 1 = .ok v ∧ tokenOf f m' "b/c.txt".toList 1 = .ok v ∧
    ("c.txt".toList ≠ "b/c.txt".toList) :=
  ⟨Dict.set exampleSettings "token" "word/fid/lid".toList, _, _,
    [some [], some "a/b".toList, some [], some []], [some [], some "a".toList, some [], some []], "a/b/c/1".toList,
    rfl, by decide +kernel, by decide +kernel, by decide⟩

/-! ## C93: samples -/

/-- C93 is false: a type node built from a type string, as all those of the token handler are, cannot be sampled. -/
theorem C93_false (fmt str : Str) (hf : fmt ≠ []) (hs : str ≠ []) (w l p : Option Str) (toks : List TokenN) (t : TypeN)
    (h : typeNew none (some fmt) (some str) w l p toks = .ok t) (more : List TokenN) (pick : List Nat) (n : Nat)
    (random : Bool) (r : TypeN) : TypeN.sample pick n random (more.foldl TypeN.append t) ≠ .ok r := by
  obtain ⟨_, h2, _⟩ := typeNew_get hf hs h
  have hattrs : (more.foldl TypeN.append t).attrs = t.attrs := by
    clear * -
    induction more generalizing t with
    | nil => rfl
    | cons x more ih => rw [List.foldl_cons, ih]; rfl
  intro hr
  unfold TypeN.sample at hr
  obtain ⟨toks', _, hr⟩ := bind_ok hr
  obtain ⟨ty, _, hr⟩ := bind_ok hr
  rw [hattrs, h2] at hr
  exact (nomatch hr)

theorem pick_length {α : Type} (l : List α) (pick : List Nat) (hn : pick.Nodup) (hp : ∀ i ∈ pick, i < l.length) :
    ((l.zipIdx.filter (fun p => p.2 ∈ pick)).map (·.1)).length = pick.length := by
  rw [List.length_map]
  have h1 : (l.zipIdx.filter (fun p => p.2 ∈ pick)).length = ((List.range l.length).filter (· ∈ pick)).length := by
    have : (List.range l.length) = l.zipIdx.map (·.2) := by rw [List.zipIdx_map_snd, List.range_eq_range']
    rw [this, List.filter_map, List.length_map]
    rfl
  rw [h1]
  refine (List.Perm.length_eq ?_)
  refine (List.perm_ext_iff_of_nodup (List.nodup_range.filter _) hn).2 ?_
  intro a
  simp only [List.mem_filter, List.mem_range, decide_eq_true_eq]
  exact ⟨fun h => h.2, fun h => ⟨hp a h, h⟩⟩

/-- C93, partial: sampling a type node that was read from a line.  A random sample has `n` of the tokens, in their
order (an exception if there are fewer); any other method gives the first `n`; the type is kept.  Missing: nodes
built from strings (`C93_false`). -/
theorem C93_partial (s s' : Settings) (f : Formatter) (h : construct s = .ok (s', f)) (m : Match)
    (x y w l p : Option Str) (toks : List TokenN) (t : TypeN) (ht : typeNew (some (m, f)) x y w l p toks = .ok t)
    (hc : ∀ c ∈ split '/' f.typeFormat, TypeComponent c) (hnd : (split '/' f.typeFormat).Nodup)
    (ty : Str) (hty : t.type = .ok ty) (hne : ty ≠ [])
    (hparts : (split '/' ty).length = (split '/' f.typeFormat).length) (pick : List Nat) (n : Nat) :
    (∃ r, TypeN.sample pick n false t = .ok r ∧ r.type = .ok ty ∧ r.tokens = t.tokens.take n) ∧
    (t.tokens.length < n → TypeN.sample pick n true t = .error .value) ∧
    (n ≤ t.tokens.length → pick.Nodup → pick.length = n → (∀ i ∈ pick, i < t.tokens.length) →
      ∃ r, TypeN.sample pick n true t = .ok r ∧ r.type = .ok ty ∧ r.tokens.length = n ∧
        r.tokens.Sublist t.tokens) := by
  have ht' := ht
  unfold typeNew at ht'
  obtain ⟨a, ha, ht'⟩ := bind_ok ht'
  have hattrs : t.attrs = Dict.set a "format".toList (some f.typeFormat) := by
    rw [← Except.ok.inj ht']
  have hfmt : Dict.get? t.attrs "type_fmt".toList = some (some f.typeFormat) := by
    obtain ⟨_, _, _, _, _, hst, _, _, _, _, _, _, _, hset, _, _, htf, _⟩ := construct_ok h
    unfold itemOfMatch at ha
    obtain ⟨_, _, ha⟩ := bind_ok ha
    obtain ⟨_, _, ha⟩ := bind_ok ha
    obtain ⟨_, _, ha⟩ := bind_ok ha
    obtain ⟨tf, htf', ha⟩ := bind_ok ha
    obtain ⟨_, _, ha⟩ := bind_ok ha
    have e1 : tf = f.typeFormat := by
      unfold getKey at htf'
      rw [hset, (C87_partial s s' f h).1 "type" (by decide), hst] at htf'
      rw [htf, ← Except.ok.inj htf']
    rw [hattrs, ← Except.ok.inj ha, Dict.get?_set, if_neg (by decide), itemOfWords, Dict.get?_set,
      if_neg (by decide), Dict.get?_set, if_pos rfl, e1]
  have hfne : f.typeFormat ≠ [] := by
    intro h0
    have := hc [] (by rw [h0]; simp [split])
    rcases this with h | h | h <;> exact absurd h (by decide)
  have hnew : ∀ toks', ∃ r, typeNew none (some f.typeFormat) (some ty) none none none toks' = .ok r ∧
      r.type = .ok ty ∧ r.tokens = toks' := by
    intro toks'
    obtain ⟨r, hr⟩ := (C89_built f.typeFormat ty hfne hne none none none toks').1.2 ⟨hparts, hc⟩
    exact ⟨r, hr, C89_partial _ _ hfne hne _ _ _ _ _ hr hnd⟩
  refine ⟨?_, ?_, ?_⟩
  · obtain ⟨r, hr, h1, h2⟩ := hnew (t.tokens.take n)
    refine ⟨r, ?_, h1, h2⟩
    unfold TypeN.sample
    rw [hty, hfmt]
    exact hr
  · intro hlt
    unfold TypeN.sample TypeN.chosen
    rw [if_pos rfl, if_pos hlt]
    rfl
  · intro hle hpn hpl hpi
    obtain ⟨r, hr, h1, h2⟩ := hnew ((t.tokens.zipIdx.filter (fun p => p.2 ∈ pick)).map (·.1))
    refine ⟨r, ?_, h1, ?_, ?_⟩
    · unfold TypeN.sample TypeN.chosen
      rw [hty, hfmt, if_pos rfl, if_neg (by omega)]
      exact hr
    · rw [h2, pick_length _ _ hpn hpi, hpl]
    · rw [h2]
      have : t.tokens = t.tokens.zipIdx.map (·.1) := by rw [List.zipIdx_map_fst]
      conv_rhs => rw [this]
      exact (List.filter_sublist).map _

example : ∃ s' f t, construct exampleSettings = .ok (s', f) ∧
    typeNew (some ([some [], some "is".toList, some "be".toList, some "V".toList], f)) none none none none none
      [⟨[], none, none⟩, ⟨[], none, some []⟩] = .ok t ∧ t.type = .ok "be/V".toList ∧
    (split '/' "be/V".toList).length = (split '/' f.typeFormat).length := ⟨_, _, _, rfl, rfl, by decide, by decide⟩

/-! ## C94: merging -/

/-- A type node built from a string, with whatever tokens it has been given since. -/
def FromString (fmt str : Str) (t : TypeN) : Prop :=
  ∃ w l p toks t0, typeNew none (some fmt) (some str) w l p toks = .ok t0 ∧ t.attrs = t0.attrs

theorem fromString_facts {fmt str : Str} {t : TypeN} (hf : fmt ≠ []) (hs : str ≠ []) (hn : (split '/' fmt).Nodup)
    (h : FromString fmt str t) : t.type = .ok str ∧ Dict.get? t.attrs "format".toList = some (some fmt) := by
  obtain ⟨w, l, p, toks, t0, h0, ha⟩ := h
  have h1 := (C89_partial fmt str hf hs w l p toks t0 h0 hn).1
  have h2 := (typeNew_get hf hs h0).1
  unfold TypeN.type at h1 ⊢
  rw [ha]
  exact ⟨h1, h2⟩

theorem mergeLoop_same {ty fmt : Str} {ts : List TypeN}
    (h : ∀ t ∈ ts, t.type = .ok ty ∧ Dict.get? t.attrs "format".toList = some (some fmt)) :
    mergeLoop ty (some (some fmt)) ts = .ok (ts.flatMap TypeN.tokens) := by
  induction ts with
  | nil => rfl
  | cons t ts ih =>
    obtain ⟨h1, h2⟩ := h t (by simp)
    rw [mergeLoop, h1, h2]
    show (if ty ≠ ty ∨ some (some fmt) ≠ some (some fmt) then _ else _) = _
    rw [if_neg (by simp), ih (fun t ht => h t (by simp [ht]))]
    rfl

theorem mergeLoop_differs {ty fmt : Str} {ts : List TypeN}
    (h : ∀ t ∈ ts, ∃ ty' fmt', t.type = .ok ty' ∧ Dict.get? t.attrs "format".toList = some (some fmt'))
    {t : TypeN} (ht : t ∈ ts) {ty' fmt' : Str} (h1 : t.type = .ok ty')
    (h2 : Dict.get? t.attrs "format".toList = some (some fmt')) (hd : ty' ≠ ty ∨ fmt' ≠ fmt) :
    mergeLoop ty (some (some fmt)) ts = .error .value := by
  induction ts with
  | nil => simp at ht
  | cons x ts ih =>
    obtain ⟨tx, fx, hx1, hx2⟩ := h x (by simp)
    rw [mergeLoop, hx1, hx2]
    show (if tx ≠ ty ∨ some (some fmt) ≠ some (some fx) then _ else _) = _
    by_cases hc : tx ≠ ty ∨ some (some fmt) ≠ some (some fx)
    · rw [if_pos hc]
    · rw [if_neg hc]
      rcases List.mem_cons.1 ht with rfl | ht
      · exfalso
        rw [hx1] at h1
        rw [hx2] at h2
        have e1 := Except.ok.inj h1
        have e2 := Option.some.inj (Option.some.inj h2)
        subst e1 e2
        simp only [not_or, not_not, Option.some.injEq] at hc
        rcases hd with hd | hd
        · exact hd hc.1
        · exact hd hc.2.symm
      · rw [ih (fun t ht => h t (by simp [ht])) ht]
        rfl

/-- C94: merging type nodes built from strings (as the workers of the token handler return them).  Nodes of one
type and format give the node of that type with all the tokens, in order; if two differ it is an exception; no
nodes, no result. -/
theorem C94_merge : merge [] = .ok none ∧
    (∀ fmt str ts, fmt ≠ [] → str ≠ [] → (split '/' fmt).Nodup → ts ≠ [] → (∀ t ∈ ts, FromString fmt str t) →
      ∃ n, merge ts = .ok (some n) ∧ n.type = .ok str ∧ FromString fmt str n ∧ n.tokens = ts.flatMap TypeN.tokens) ∧
    (∀ ts : List TypeN, (∀ t ∈ ts, ∃ fmt str, fmt ≠ [] ∧ str ≠ [] ∧ (split '/' fmt).Nodup ∧ FromString fmt str t) →
      ∀ t ∈ ts, ∀ t' ∈ ts, ∀ fmt str fmt' str', fmt ≠ [] → str ≠ [] → (split '/' fmt).Nodup → FromString fmt str t →
        fmt' ≠ [] → str' ≠ [] → (split '/' fmt').Nodup → FromString fmt' str' t' →
        (fmt ≠ fmt' ∨ str ≠ str') → merge ts = .error .value) := by
  refine ⟨rfl, ?_, ?_⟩
  · intro fmt str ts hf hs hn hne hts
    have hall := fun t ht => fromString_facts hf hs hn (hts t ht)
    cases ts with
    | nil => exact absurd rfl hne
    | cons t ts =>
      obtain ⟨w, l, p, toks, t0, h0, _⟩ := hts t (by simp)
      have hok := ((C89_built fmt str hf hs w l p toks).1.1 ⟨t0, h0⟩)
      obtain ⟨n, hnew⟩ := ((C89_built fmt str hf hs none none none ((t :: ts).flatMap TypeN.tokens)).1.2 hok)
      obtain ⟨h1, h2⟩ := C89_partial fmt str hf hs _ _ _ _ n hnew hn
      refine ⟨n, ?_, h1, ⟨_, _, _, _, n, hnew, rfl⟩, h2⟩
      rw [merge, (hall t (by simp)).1, (hall t (by simp)).2]
      show (mergeLoop str (some (some fmt)) (t :: ts) >>= _) = _
      rw [mergeLoop_same hall]
      show (typeNew none (some fmt) (some str) none none none _ >>= _) = _
      rw [hnew]
      rfl
  · intro ts hts t ht t' ht' fmt str fmt' str' hf hs hn hfs hf' hs' hn' hfs' hd
    obtain ⟨a1, a2⟩ := fromString_facts hf hs hn hfs
    obtain ⟨b1, b2⟩ := fromString_facts hf' hs' hn' hfs'
    have hall : ∀ t ∈ ts, ∃ ty' fmt', t.type = .ok ty' ∧ Dict.get? t.attrs "format".toList = some (some fmt') := by
      intro t ht
      obtain ⟨f0, s0, x1, x2, x3, x4⟩ := hts t ht
      exact ⟨s0, f0, fromString_facts x1 x2 x3 x4⟩
    cases ts with
    | nil => simp at ht
    | cons u us =>
      obtain ⟨ty, fm, u1, u2⟩ := hall u (by simp)
      rw [merge, u1, u2]
      have herr : mergeLoop ty (some (some fm)) (u :: us) = .error .value := by
        by_cases hc : str ≠ ty ∨ fmt ≠ fm
        · exact mergeLoop_differs hall ht a1 a2 hc
        · refine mergeLoop_differs hall ht' b1 b2 ?_
          simp only [not_or, not_not] at hc
          rw [← hc.1, ← hc.2]
          rcases hd with hd | hd
          · exact .inr (Ne.symm hd)
          · exact .inl (Ne.symm hd)
      show (mergeLoop ty (some (some fm)) (u :: us) >>= _) = _
      rw [herr]
      rfl

example : ∃ t, FromString "lemma/pos".toList "be/V".toList t ∧ t.tokens = [⟨[], none, none⟩] :=
  ⟨_, ⟨none, none, none, [⟨[], none, none⟩], _, rfl, rfl⟩, rfl⟩

/-! ## C95: saving and loading -/

/-- C95 is false: whatever a type node's file holds, it cannot be loaded. -/
theorem C95_false (t : TypeN) (j : TypeJson) (_ : t.save = .ok j) : ∃ e, typeLoad j = .error e := by
  cases h : typeLoad j with
  | error e => exact ⟨e, rfl⟩
  | ok r =>
    exfalso
    unfold typeLoad at h
    obtain ⟨toks, _, h⟩ := bind_ok h
    split at h
    · exact (nomatch h)
    · exact (nomatch h)

/-- What is saved: lemma, pos and the tokens, each with its words, file, line and collocates. -/
theorem C95_partial (t : TypeN) (j : TypeJson) (h : t.save = .ok j) :
    Dict.get? t.attrs "lemma".toList = some j.lem ∧ Dict.get? t.attrs "pos".toList = some j.pos ∧
    List.Forall₂ (fun tok tj => Dict.get? tok.attrs "word".toList = some tj.word ∧
      Dict.get? tok.attrs "pos".toList = some tj.pos ∧ Dict.get? tok.attrs "lemma".toList = some tj.lem ∧
      Dict.get? tok.attrs "fid".toList = some tj.fid ∧ Dict.get? tok.attrs "lid".toList = some tj.lid ∧
      ∃ lc rc, tok.lcollocs = some lc ∧ tok.rcollocs = some rc ∧ List.Forall₂ (fun a s => itemStr a = .ok s) lc tj.left ∧
        List.Forall₂ (fun a s => itemStr a = .ok s) rc tj.right) t.tokens j.tokens := by
  have hcomp : ∀ {a : Attrs} {c : Str} {v : Option Str}, component a c = .ok v → Dict.get? a c = some v := by
    intro a c v h
    unfold component at h
    split at h
    · rename_i x hx; rw [hx, Except.ok.inj h]
    · exact (nomatch h)
  unfold TypeN.save at h
  obtain ⟨l, hl, h⟩ := bind_ok h
  obtain ⟨p, hp, h⟩ := bind_ok h
  obtain ⟨toks, ht, h⟩ := bind_ok h
  obtain rfl := Except.ok.inj h
  refine ⟨hcomp hl, hcomp hp, ?_⟩
  refine (mapM_forall₂.1 ht).imp ?_
  intro tok tj h
  unfold TokenN.json at h
  obtain ⟨w, hw, h⟩ := bind_ok h
  obtain ⟨p, hp, h⟩ := bind_ok h
  obtain ⟨l, hl, h⟩ := bind_ok h
  obtain ⟨f, hf, h⟩ := bind_ok h
  obtain ⟨i, hi, h⟩ := bind_ok h
  split at h
  · rename_i lc rc hlc hrc
    obtain ⟨ls, hls, h⟩ := bind_ok h
    obtain ⟨rs, hrs, h⟩ := bind_ok h
    obtain rfl := Except.ok.inj h
    exact ⟨hcomp hw, hcomp hp, hcomp hl, hcomp hf, hcomp hi, lc, rc, hlc, hrc, mapM_forall₂.1 hls, mapM_forall₂.1 hrs⟩
  · exact (nomatch h)

example : ∃ t j, typeNew none (some "lemma/pos".toList) (some "be/V".toList) none none none [] = .ok t ∧ t.save = .ok j ∧
    typeLoad j = .error .attribute := ⟨_, _, rfl, rfl, by decide⟩

/-- C95, the collocates in the file: `str(item)` is word, pos and lemma with tabs between them, and an exception if one of them is
missing or `None`. -/
theorem C95_item (a : Attrs) (v : Str) : itemStr a = .ok v ↔ ∃ w p l, Dict.get? a "word".toList = some (some w) ∧
    Dict.get? a "pos".toList = some (some p) ∧ Dict.get? a "lemma".toList = some (some l) ∧
    v = w ++ '\t' :: (p ++ '\t' :: l) := by
  have hc : ∀ c x, component a c = .ok (some x) ↔ Dict.get? a c = some (some x) := by
    intro c x
    unfold component
    cases Dict.get? a c <;> simp
  have hmap : itemStr a = .ok v ↔ ∃ vs ss, ["word".toList, "pos".toList, "lemma".toList].mapM (component a) = .ok vs ∧
      vs.mapM asStr = .ok ss ∧ v = join '\t' ss := by
    unfold itemStr
    constructor
    · intro h
      obtain ⟨vs, hv, h⟩ := bind_ok h
      obtain ⟨ss, hs, h⟩ := bind_ok h
      exact ⟨vs, ss, hv, hs, (Except.ok.inj h).symm⟩
    · rintro ⟨vs, ss, hv, hs, rfl⟩
      rw [hv]
      simp only [bind, Except.bind]
      rw [hs]
      rfl
  have hs : ∀ x s, asStr x = .ok s ↔ x = some s := by
    intro x s
    cases x <;> simp [asStr]
  rw [hmap]
  simp only [mapM_forall₂]
  constructor
  · rintro ⟨vs, ss, hv, hs', rfl⟩
    cases hv with
    | cons h1 hv =>
    cases hv with
    | cons h2 hv =>
    cases hv with
    | cons h3 hv =>
    cases hv
    cases hs' with
    | cons g1 hs' =>
    cases hs' with
    | cons g2 hs' =>
    cases hs' with
    | cons g3 hs' =>
    cases hs'
    rw [hs] at g1 g2 g3
    subst g1 g2 g3
    exact ⟨_, _, _, (hc _ _).1 h1, (hc _ _).1 h2, (hc _ _).1 h3, rfl⟩
  · rintro ⟨w, p, l, h1, h2, h3, rfl⟩
    refine ⟨[some w, some p, some l], [w, p, l], ?_, ?_, rfl⟩
    · exact .cons ((hc _ _).2 h1) (.cons ((hc _ _).2 h2) (.cons ((hc _ _).2 h3) .nil))
    · exact .cons ((hs _ _).2 rfl) (.cons ((hs _ _).2 rfl) (.cons ((hs _ _).2 rfl) .nil))

example : itemStr (wordsOf (some ['a']) (some ['b']) (some ['N'])) = .ok ['a', '\t', 'N', '\t', 'b'] := by decide +kernel

/-- C94, appending tokens: they stand after those that were there, in order, and nothing else changes. -/
theorem C94_append (t : TypeN) (toks : List TokenN) :
    (toks.foldl TypeN.append t).tokens = t.tokens ++ toks ∧ (toks.foldl TypeN.append t).attrs = t.attrs := by
  induction toks generalizing t with
  | nil => simp
  | cons x xs ih =>
    rw [List.foldl_cons]
    refine ⟨(ih _).1.trans ?_, (ih _).2⟩
    simp [TypeN.append]

example (x y : TokenN) (a : Attrs) : ([x, y].foldl TypeN.append ⟨a, [y]⟩).tokens = [y, x, y] := (C94_append _ _).1

/-- C95, how loading fails: a token with a lemma and a file is an `AttributeError`, and so is the type. -/
theorem C95_load (j : TypeJson) (hl : j.lem ≠ none ∧ j.lem ≠ some []) (hp : j.pos ≠ none ∧ j.pos ≠ some [])
    (ht : ∀ t ∈ j.tokens, t.lem ≠ none ∧ t.lem ≠ some [] ∧ t.fid ≠ none ∧ t.fid ≠ some []) : typeLoad j = .error .attribute := by
  have htr : ∀ x : Option Str, x ≠ none → x ≠ some [] → truthy x = true := by
    intro x h1 h2
    match x, h1, h2 with
    | some (_ :: _), _, _ => rfl
    | some [], _, h => exact absurd rfl h
    | none, h, _ => exact absurd rfl h
  unfold typeLoad
  cases hj : j.tokens with
  | nil =>
    simp only [List.mapM_nil, pure_bind]
    rw [htr _ hl.1 hl.2, htr _ hp.1 hp.2]
    rfl
  | cons t ts =>
    obtain ⟨h1, h2, h3, h4⟩ := ht t (by rw [hj]; simp)
    have : tokenLoad t = .error .attribute := by
      unfold tokenLoad
      rw [htr _ h1 h2, htr _ h3 h4]
      rfl
    rw [List.mapM_cons, this]
    rfl

/-- C95, what is loaded for a token without file: the part of speech is taken for the format and the word for the token. -/
theorem C95_token_shifted : ∃ n, tokenLoad ⟨some "a/b".toList, some "word/lemma".toList, some "x".toList, none, some "7".toList, [], []⟩ = .ok n ∧
    Dict.get? n.attrs "word".toList = some (some "a".toList) ∧ Dict.get? n.attrs "lemma".toList = some (some "b".toList) ∧
    Dict.get? n.attrs "fid".toList = some (some "7".toList) := ⟨_, rfl, by decide, by decide, by decide⟩

example : typeLoad ⟨some "be".toList, some "V".toList,
    [⟨some "is".toList, some "V".toList, some "be".toList, some "f".toList, some "1".toList, [], []⟩]⟩ = .error .attribute :=
  C95_load _ (by decide) (by decide) (by decide)

end Verif.Items
