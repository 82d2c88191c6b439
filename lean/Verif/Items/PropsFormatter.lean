import Verif.Items.Formatter
import Mathlib.Data.List.Induction
import Mathlib.Data.List.Forall2

/-!
# C84-C88: the corpus formatter
-/

namespace Verif.Items

open Verif.Py
open Verif.Vocab.Plain (Str)

/-! ## Specification -/

/-- Column `c` stands at position `i` (counted from 0) of the column list; if it is named twice, the last
position counts. -/
def ColumnAt (cols : List Str) (c : Str) (i : Nat) : Prop :=
  cols[i]? = some c ∧ ∀ j : Nat, i < j → cols[j]? ≠ some c

/-- Column `c` of a line, read off the groups of its match: groups are counted from 1. -/
def Reads (cols : List Str) (m : Match) (c val : Str) : Prop :=
  ∃ i, ColumnAt cols c i ∧ m[i + 1]? = some (some val)

/-- The contents of the columns `parts`, and what follows, joined by `/`. -/
def Rendered (cols : List Str) (m : Match) (parts more : List Str) (v : Str) : Prop :=
  ∃ vals, List.Forall₂ (Reads cols m) parts vals ∧ v = join '/' (vals ++ more)

/-- The column names of the settings. -/
def ColumnsOf (s : Settings) (cols : List Str) : Prop :=
  ∃ c, cols = split ',' c ∧
    (Dict.get? s "global-columns" = some c ∨ (Dict.get? s "global-columns" = none ∧ Dict.get? s "line-format" = some c))

/-! ## Lemmas -/

theorem bind_ok {α β : Type} {x : Except Err α} {f : α → Except Err β} {b : β} (h : (x >>= f) = .ok b) :
    ∃ a, x = .ok a ∧ f a = .ok b := by
  cases x with
  | error e => exact (nomatch h)
  | ok a => exact ⟨a, rfl, h⟩

theorem mapM_forall₂ {α β : Type} {f : α → Except Err β} : ∀ {l : List α} {r : List β},
    l.mapM f = .ok r ↔ List.Forall₂ (fun a b => f a = .ok b) l r
  | [], r => by
    rw [List.mapM_nil]
    constructor
    · intro h; obtain rfl := Except.ok.inj h; exact .nil
    · intro h; cases h; rfl
  | a :: l, r => by
    rw [List.mapM_cons]
    constructor
    · intro h
      obtain ⟨b, hb, h⟩ := bind_ok h
      obtain ⟨bs, hbs, h⟩ := bind_ok h
      obtain rfl := Except.ok.inj h
      exact .cons hb (mapM_forall₂.1 hbs)
    · intro h
      cases h with
      | cons hb hbs =>
        rw [hb, mapM_forall₂.2 hbs]
        rfl

theorem colids_snoc (cols : List Str) (x c : Str) :
    Dict.get? (colids (cols ++ [x])) c = if x = c then some (cols.length + 1) else Dict.get? (colids cols) c := by
  unfold colids Dict.ofPairs
  rw [List.zipIdx_append, List.map_append]
  simp only [List.zipIdx_cons, List.zipIdx_nil, List.map_cons, List.map_nil, zero_add]
  rw [List.foldl_append]
  simp only [List.foldl_cons, List.foldl_nil]
  rw [Dict.get?_set]

/-- The number stored for a column. -/
theorem colids_get? (cols : List Str) (c : Str) (n : Nat) :
    Dict.get? (colids cols) c = some n ↔ ∃ i, n = i + 1 ∧ ColumnAt cols c i := by
  induction cols using List.reverseRecOn generalizing n with
  | nil =>
    constructor
    · intro h; exact (nomatch h)
    · rintro ⟨i, _, h, _⟩; simp at h
  | append_singleton cols x ih =>
    rw [colids_snoc]
    by_cases hx : x = c
    · rw [if_pos hx]
      constructor
      · intro h
        refine ⟨cols.length, (Option.some.inj h).symm, ?_, ?_⟩
        · simp [hx]
        · intro j hj
          rw [List.getElem?_eq_none (by simp; omega)]
          simp
      · rintro ⟨i, rfl, h1, h2⟩
        have hi : i < cols.length + 1 := by
          have := (List.getElem?_eq_some_iff.1 h1).1
          simpa using this
        have : ¬ i < cols.length := fun hlt => h2 cols.length hlt (by simp [hx])
        congr 1
        omega
    · rw [if_neg hx, ih]
      have : ∀ i, ColumnAt (cols ++ [x]) c i ↔ ColumnAt cols c i := by
        intro i
        have key : ∀ j : Nat, (cols ++ [x])[j]? = some c ↔ cols[j]? = some c := by
          intro j
          by_cases hj : j < cols.length
          · rw [List.getElem?_append_left hj]
          · rw [List.getElem?_append_right (by omega), List.getElem?_eq_none (by omega : cols.length ≤ j)]
            constructor
            · intro h
              have := (List.getElem?_eq_some_iff.1 h)
              obtain ⟨hlt, he⟩ := this
              simp only [List.length_singleton] at hlt
              simp only [show j - cols.length = 0 by omega, List.getElem_cons_zero] at he
              exact absurd he hx
            · intro h; exact (nomatch h)
        unfold ColumnAt
        simp only [ne_eq, key]
      simp only [this]

theorem colids_none (cols : List Str) (c : Str) : Dict.get? (colids cols) c = none ↔ c ∉ cols := by
  constructor
  · intro h hm
    -- the last position of `c`
    have : ∃ i, ColumnAt cols c i := by
      induction cols using List.reverseRecOn with
      | nil => simp at hm
      | append_singleton cols x ih =>
        rw [colids_snoc] at h
        by_cases hx : x = c
        · rw [if_pos hx] at h; exact (nomatch h)
        · rw [if_neg hx] at h
          have hm' : c ∈ cols := by
            rcases List.mem_append.1 hm with hm | hm
            · exact hm
            · exact absurd (by simpa using hm : c = x).symm hx
          obtain ⟨i, hi⟩ := ih h hm'
          have h2 := (colids_get? cols c (i + 1)).2 ⟨i, rfl, hi⟩
          rw [h2] at h
          exact (nomatch h)
    obtain ⟨i, hi⟩ := this
    rw [(colids_get? cols c (i + 1)).2 ⟨i, rfl, hi⟩] at h
    exact (nomatch h)
  · intro h
    cases hg : Dict.get? (colids cols) c with
    | none => rfl
    | some n =>
      obtain ⟨i, _, hi, _⟩ := (colids_get? cols c n).1 hg
      exact absurd (List.mem_of_getElem? hi) h

/-- The numbers of the columns of a format. -/
def Ids (cols parts : List Str) (ids : List Nat) : Prop :=
  List.Forall₂ (fun c n => ∃ i, n = i + 1 ∧ ColumnAt cols c i) parts ids

theorem idsOf_ok {cols eles : List Str} {ids : List Nat} : idsOf (colids cols) eles = .ok ids ↔ Ids cols eles ids := by
  unfold idsOf Ids
  rw [mapM_forall₂]
  have : ∀ c n, idOf (colids cols) c = .ok n ↔ ∃ i, n = i + 1 ∧ ColumnAt cols c i := by
    intro c n
    rw [← colids_get?]
    unfold idOf
    cases Dict.get? (colids cols) c with
    | none => simp
    | some k => simp
  simp only [this]

theorem columnAt_unique {cols : List Str} {c : Str} {i j : Nat} (h : ColumnAt cols c i) (h' : ColumnAt cols c j) :
    i = j := by
  rcases Nat.lt_trichotomy i j with hlt | rfl | hlt
  · exact absurd h'.1 (h.2 j hlt)
  · rfl
  · exact absurd h.1 (h'.2 i hlt)

theorem joinGroups_ok (m : Match) (ids : List Nat) (more : List Str) (v : Str) :
    joinGroups m ids more = .ok v ↔
      ∃ vals, List.Forall₂ (fun (n : Nat) val => m[n]? = some (some val)) ids vals ∧ v = join '/' (vals ++ more) := by
  unfold joinGroups
  constructor
  · intro h
    obtain ⟨gs, hg, h⟩ := bind_ok h
    obtain ⟨ss, hs, h⟩ := bind_ok h
    obtain rfl := Except.ok.inj h
    refine ⟨ss, ?_, rfl⟩
    rw [mapM_forall₂] at hg hs
    clear * - hg hs
    induction hg generalizing ss with
    | nil => cases hs; exact .nil
    | cons h1 _ ih =>
      cases hs with
      | cons h2 h3 =>
        refine .cons ?_ (ih _ h3)
        unfold group at h1
        split at h1
        · obtain rfl := Except.ok.inj h1
          rename_i g hm
          rw [hm]
          cases g with
          | none => exact (nomatch h2)
          | some s => obtain rfl := Except.ok.inj h2; rfl
        · exact (nomatch h1)
  · rintro ⟨vals, hv, rfl⟩
    have h1 : ids.mapM (group m) = .ok (vals.map some) := by
      rw [mapM_forall₂, List.forall₂_map_right_iff]
      refine hv.imp ?_
      intro n val h
      unfold group
      rw [h]
    have h2 : (vals.map some).mapM asStr = .ok vals := by
      rw [mapM_forall₂, List.forall₂_map_left_iff]
      exact List.forall₂_same.2 (fun _ _ => rfl)
    rw [h1]
    show (List.mapM asStr (vals.map some) >>= fun ss => pure (join '/' (ss ++ more))) = _
    rw [h2]
    rfl

theorem rendered_iff {cols parts : List Str} {ids : List Nat} (h : Ids cols parts ids) (m : Match) (more : List Str)
    (v : Str) : joinGroups m ids more = .ok v ↔ Rendered cols m parts more v := by
  rw [joinGroups_ok]
  have key : ∀ vals, List.Forall₂ (fun (n : Nat) val => m[n]? = some (some val)) ids vals ↔
      List.Forall₂ (Reads cols m) parts vals := by
    unfold Ids at h
    induction h with
    | nil => intro vals; constructor <;> (intro h; cases h; exact .nil)
    | cons h1 _ ih =>
      obtain ⟨i, rfl, hi⟩ := h1
      intro vals
      constructor
      · intro h
        cases h with
        | cons h2 h3 => exact .cons ⟨i, hi, h2⟩ ((ih _).1 h3)
      · intro h
        cases h with
        | cons h2 h3 =>
          obtain ⟨j, hj, h2⟩ := h2
          rw [columnAt_unique hj hi] at h2
          exact .cons h2 ((ih _).2 h3)
  unfold Rendered
  simp only [key]

/-- What a successful construction means. -/
theorem construct_ok {s s' : Settings} {f : Formatter} (h : construct s = .ok (s', f)) :
    ∃ cols tyf tof cof, ColumnsOf s cols ∧ Dict.get? s "type" = some tyf ∧ Dict.get? s "token" = some tof ∧
      cof = (Dict.get? s "colloc").getD tyf ∧ f.colids = colids cols ∧
      Ids cols (split '/' tyf) f.typeIds ∧ Ids cols (split '/' tof).dropLast.dropLast f.tokenIds ∧
      Ids cols (split '/' cof) f.collocIds ∧
      s' = (if Dict.contains s "colloc" then s else Dict.set s "colloc" tyf) ∧ f.settings = s' ∧
      lineMachines s = .ok (f.lineMachine, f.typeMachine, f.collocMachine, f.tokenMachine) ∧
      boundaryMachines s = .ok (f.single, f.left, f.right) ∧
      f.typeFormat = tyf ∧ f.tokenFormat = tof ∧ f.collocFormat = cof := by
  unfold construct at h
  obtain ⟨⟨lm, tym, com, tom⟩, hl, h⟩ := bind_ok h
  obtain ⟨⟨sg, l, r⟩, hb, h⟩ := bind_ok h
  obtain ⟨cols, hc, h⟩ := bind_ok h
  obtain ⟨tyf, ht, h⟩ := bind_ok h
  obtain ⟨tyi, hti, h⟩ := bind_ok h
  obtain ⟨tof, hto, h⟩ := bind_ok h
  obtain ⟨toi, htoi, h⟩ := bind_ok h
  obtain ⟨cof, hco, h⟩ := bind_ok h
  obtain ⟨coi, hcoi, h⟩ := bind_ok h
  simp only [pure, Except.pure, Except.ok.injEq, Prod.mk.injEq] at h
  obtain ⟨rfl, rfl⟩ := h
  have hkey : ∀ {t : Settings} {k : String} {v : Str}, getKey t k = .ok v → Dict.get? t k = some v := by
    intro t k v h
    unfold getKey at h
    split at h
    · rename_i w hw; rw [hw, Except.ok.inj h]
    · exact (nomatch h)
  have hcof := hkey hco
  refine ⟨cols, tyf, tof, cof, ?_, hkey ht, hkey hto, ?_, rfl, idsOf_ok.1 hti, idsOf_ok.1 htoi, idsOf_ok.1 hcoi, rfl,
    rfl, hl, hb, rfl, rfl, rfl⟩
  · unfold columns at hc
    split at hc
    · rename_i c hg
      exact ⟨c, (Except.ok.inj hc).symm, .inl hg⟩
    · rename_i c hg hg'
      exact ⟨c, (Except.ok.inj hc).symm, .inr ⟨hg, hg'⟩⟩
    · exact (nomatch hc)
  · by_cases hcc : Dict.contains s "colloc" = true
    · rw [if_pos hcc] at hcof
      rw [hcof]; rfl
    · rw [if_neg hcc, Dict.get?_set, if_pos rfl] at hcof
      have : Dict.get? s "colloc" = none := by
        rw [Dict.get?_eq_none_iff]
        intro hm
        exact hcc ((Dict.contains_iff _ _).2 hm)
      rw [this]
      exact (Option.some.inj hcof).symm

theorem columnsOf_unique {s : Settings} {cols cols' : List Str} (h : ColumnsOf s cols) (h' : ColumnsOf s cols') :
    cols = cols' := by
  obtain ⟨c, rfl, h⟩ := h
  obtain ⟨c', rfl, h'⟩ := h'
  rcases h with h | ⟨h, h2⟩ <;> rcases h' with h' | ⟨h', h2'⟩
  · rw [h] at h'; rw [Option.some.inj h']
  · rw [h] at h'; exact (nomatch h')
  · rw [h] at h'; exact (nomatch h')
  · rw [h2] at h2'; rw [Option.some.inj h2']

/-! ## C84 -/

/-- C84: type, collocate and token of a line are the contents of the columns that the settings name, in the
order of the format; the token also has the file and the line; without a collocate format, the collocate is
the type. -/
theorem C84_columns (s s' : Settings) (f : Formatter) (h : construct s = .ok (s', f)) (cols : List Str)
    (hc : ColumnsOf s cols) (m : Match) :
    (∀ v, getType f m = .ok v ↔ ∃ fmt, Dict.get? s "type" = some fmt ∧ Rendered cols m (split '/' fmt) [] v) ∧
    (∀ v, getColloc f m = .ok v ↔ ∃ fmt, (Dict.get? s "colloc" = some fmt ∨
      (Dict.get? s "colloc" = none ∧ Dict.get? s "type" = some fmt)) ∧ Rendered cols m (split '/' fmt) [] v) ∧
    (∀ fid lid v, getToken f m fid lid = .ok v ↔ ∃ fmt, Dict.get? s "token" = some fmt ∧
      ∃ parts a b, (split '/' fmt = parts ++ [a, b] ∨ (parts = [] ∧ (split '/' fmt).length < 2)) ∧
        Rendered cols m parts [fid, lid] v) := by
  obtain ⟨cols', tyf, tof, cof, hcols, hty, hto, hco, -, h1, h2, h3, -⟩ := construct_ok h
  obtain rfl := columnsOf_unique hc hcols
  refine ⟨fun v => ?_, fun v => ?_, fun fid lid v => ?_⟩
  · rw [getType, rendered_iff h1]
    constructor
    · intro hr; exact ⟨tyf, hty, hr⟩
    · rintro ⟨fmt, hf, hr⟩; rw [hty] at hf; obtain rfl := Option.some.inj hf; exact hr
  · rw [getColloc, rendered_iff h3]
    cases hg : Dict.get? s "colloc" with
    | none =>
      rw [hg] at hco
      simp only [Option.getD_none] at hco
      subst hco
      constructor
      · intro hr; exact ⟨cof, .inr ⟨rfl, hty⟩, hr⟩
      · rintro ⟨fmt, hf | ⟨_, hf⟩, hr⟩
        · exact (nomatch hf)
        · rw [hty] at hf; obtain rfl := Option.some.inj hf; exact hr
    | some c =>
      rw [hg] at hco
      simp only [Option.getD_some] at hco
      subst hco
      constructor
      · intro hr; exact ⟨cof, .inl rfl, hr⟩
      · rintro ⟨fmt, hf | ⟨hf, _⟩, hr⟩
        · obtain rfl := Option.some.inj hf; exact hr
        · exact (nomatch hf)
  · rw [getToken, rendered_iff h2]
    have hparts : ∀ l : List Str, (∃ a b, l = l.dropLast.dropLast ++ [a, b]) ∨ (l.dropLast.dropLast = [] ∧ l.length < 2) := by
      intro l
      rcases List.eq_nil_or_concat l with rfl | ⟨l', b, rfl⟩
      · exact .inr ⟨rfl, by simp⟩
      · rcases List.eq_nil_or_concat l' with rfl | ⟨l'', a, rfl⟩
        · exact .inr ⟨rfl, by simp⟩
        · exact .inl ⟨a, b, by simp [List.concat_eq_append]⟩
    constructor
    · intro hr
      refine ⟨tof, hto, ?_⟩
      rcases hparts (split '/' tof) with ⟨a, b, he⟩ | ⟨he, hlt⟩
      · exact ⟨_, a, b, .inl he, hr⟩
      · exact ⟨_, [], [], .inr ⟨he, hlt⟩, hr⟩
    · rintro ⟨fmt, hf, parts, a, b, hp, hr⟩
      rw [hto] at hf
      obtain rfl := Option.some.inj hf
      have : (split '/' tof).dropLast.dropLast = parts := by
        rcases hp with hp | ⟨rfl, hlt⟩
        · rw [hp]
          have : parts ++ [a, b] = (parts ++ [a]) ++ [b] := by simp
          rw [this, List.dropLast_concat, List.dropLast_concat]
        · rw [← List.length_eq_zero_iff, List.length_dropLast, List.length_dropLast]
          omega
      rw [this]
      exact hr

/-- C84: a format that names a column which the corpus does not have is refused. -/
theorem C84_refused (s s' : Settings) (f : Formatter) (h : construct s = .ok (s', f)) (cols : List Str)
    (hc : ColumnsOf s cols) :
    (∀ fmt, Dict.get? s "type" = some fmt → ∀ c ∈ split '/' fmt, c ∈ cols) ∧
    (∀ fmt, Dict.get? s "colloc" = some fmt → ∀ c ∈ split '/' fmt, c ∈ cols) ∧
    (∀ fmt parts a b, Dict.get? s "token" = some fmt → split '/' fmt = parts ++ [a, b] → ∀ c ∈ parts, c ∈ cols) := by
  obtain ⟨cols', tyf, tof, cof, hcols, hty, hto, hco, -, h1, h2, h3, -⟩ := construct_ok h
  obtain rfl := columnsOf_unique hc hcols
  have hmem : ∀ {parts : List Str} {ids : List Nat}, Ids cols parts ids → ∀ c ∈ parts, c ∈ cols := by
    intro parts ids hi
    unfold Ids at hi
    induction hi with
    | nil => simp
    | cons h _ ih =>
      intro c hcm
      obtain ⟨i, _, hat⟩ := h
      rcases List.mem_cons.1 hcm with rfl | hcm
      · exact List.mem_of_getElem? hat.1
      · exact ih c hcm
  refine ⟨?_, ?_, ?_⟩
  · intro fmt hf
    rw [hty] at hf
    obtain rfl := Option.some.inj hf
    exact hmem h1
  · intro fmt hf
    rw [hf] at hco
    simp only [Option.getD_some] at hco
    subst hco
    exact hmem h3
  · intro fmt parts a b hf hp
    rw [hto] at hf
    obtain rfl := Option.some.inj hf
    have : (split '/' tof).dropLast.dropLast = parts := by
      rw [hp]
      have : parts ++ [a, b] = (parts ++ [a]) ++ [b] := by simp
      rw [this, List.dropLast_concat, List.dropLast_concat]
    rw [this] at h2
    exact hmem h2

/-- Settings as in the documentation. -/
def exampleSettings : Settings :=
  [("line-machine", "(.*)".toList), ("boundary-detection-mechanism", "single".toList),
   ("separator-line-machine", "</s>".toList), ("single-boundary-machine", "</s>".toList),
   ("line-format", "word,lemma,pos".toList), ("type", "lemma/pos".toList), ("token", "word/pos/fid/lid".toList)]

example : ∃ s' f, construct exampleSettings = .ok (s', f) ∧
    ColumnsOf exampleSettings ["word".toList, "lemma".toList, "pos".toList] ∧
    getType f [some "is be V".toList, some "is".toList, some "be".toList, some "V".toList] = .ok "be/V".toList ∧
    getToken f [some "is be V".toList, some "is".toList, some "be".toList, some "V".toList] "f1".toList "11".toList
      = .ok "is/V/f1/11".toList := by
  refine ⟨_, _, rfl, ⟨"word,lemma,pos".toList, by decide, .inr (by decide)⟩, by decide, by decide⟩

/-! ## C85: boundaries -/

/-- C85, partial: with the mechanism `single` and both names set, a line is a boundary exactly if it matches
`separator-line-machine` and not the line machine.  Missing: one of the two names set (`C85_false_one`),
different values (`C85_false_other`), and the mechanism `left-right` (`C85_false_left_right`). -/
theorem C85_partial (s s' : Settings) (f : Formatter) (rx : Regex) (h : construct s = .ok (s', f))
    (hm : Dict.get? s "boundary-detection-mechanism" = some "single".toList) (lm : Str)
    (hl : Dict.get? s "line-machine" = some lm) (line : Str) :
    ∃ sep, Dict.get? s "separator-line-machine" = some sep ∧ (Dict.get? s "single-boundary-machine").isSome ∧
      (readLine rx f line = .ok .boundary ↔ (rx lm line = none ∧ (rx sep line).isSome)) ∧
      (∀ m, readLine rx f line = .ok (.item m) ↔ rx lm line = some m) ∧
      ∃ l, readLine rx f line = .ok l := by
  obtain ⟨_, _, _, _, _, _, _, _, _, _, _, _, _, _, hlm, hb, _⟩ := construct_ok h
  have hlm' : f.lineMachine = some lm := by
    unfold lineMachines at hlm
    rw [hl] at hlm
    simp only [Except.ok.injEq, Prod.mk.injEq] at hlm
    exact hlm.1.symm
  unfold boundaryMachines getKey at hb
  rw [hm] at hb
  simp only [bind, Except.bind, if_true] at hb
  cases hs1 : Dict.get? s "single-boundary-machine" with
  | none =>
    have hc : Dict.contains s "single-boundary-machine" = false := by simp [Dict.contains, hs1]
    rw [hc, hs1] at hb
    simp only [Bool.false_eq_true, if_false] at hb
    split at hb <;> exact (nomatch hb)
  | some sg =>
    have hc : Dict.contains s "single-boundary-machine" = true := by simp [Dict.contains, hs1]
    rw [hc] at hb
    simp only [if_true] at hb
    cases hs2 : Dict.get? s "separator-line-machine" with
    | none => rw [hs2] at hb; exact (nomatch hb)
    | some sep =>
      rw [hs2] at hb
      simp only [pure, Except.pure, Except.ok.injEq, Prod.mk.injEq] at hb
      refine ⟨sep, rfl, rfl, ?_⟩
      have hr : readLine rx f line = (match rx lm line with
          | some m => .ok (.item m)
          | none => if (rx sep line).isSome then .ok .boundary else .ok .nothing) := by
        unfold readLine matchLine separatorLine
        rw [hlm', ← hb.1]
        simp only [attr, bind, Except.bind, pure, Except.pure]
        cases rx lm line with
        | some m => rfl
        | none => rfl
      rw [hr]
      cases hx : rx lm line with
      | some m => simp
      | none =>
        simp only
        cases hy : rx sep line with
        | none => simp
        | some _ => simp

/-- C85 is false: with just one of the two names, whichever, no formatter can be built. -/
theorem C85_false_one (s : Settings)
    (h : Dict.get? s "single-boundary-machine" = none ∨ Dict.get? s "separator-line-machine" = none)
    (hm : Dict.get? s "boundary-detection-mechanism" = some "single".toList) (p : Settings × Formatter) :
    construct s ≠ .ok p := by
  intro hc
  obtain ⟨s', f⟩ := p
  obtain ⟨_, _, _, _, _, _, _, _, _, _, _, _, _, _, _, hb, _⟩ := construct_ok hc
  unfold boundaryMachines getKey at hb
  rw [hm] at hb
  simp only [bind, Except.bind, if_true, Dict.contains] at hb
  cases h1 : Dict.get? s "single-boundary-machine" with
  | none =>
    simp only [h1, Option.isSome_none, Bool.false_eq_true, if_false] at hb
    split at hb <;> exact (nomatch hb)
  | some x =>
    have h2 : Dict.get? s "separator-line-machine" = none := by
      rcases h with h | h
      · rw [h1] at h; exact (nomatch h)
      · exact h
    simp only [h1, h2, Option.isSome_some, if_true] at hb
    exact (nomatch hb)

example : ∃ s : Settings, Dict.get? s "single-boundary-machine" = none ∧
    (Dict.get? s "separator-line-machine").isSome ∧
    Dict.get? s "boundary-detection-mechanism" = some "single".toList :=
  ⟨[("boundary-detection-mechanism", "single".toList), ("separator-line-machine", "x".toList)], by decide, by decide, by decide⟩

/-- C85 is false: if the two have different values, the pattern given as `single-boundary-machine` is not used;
a line that matches it is no boundary. -/
theorem C85_false_other : ∃ (s s' : Settings) (f : Formatter) (rx : Regex) (line : Str),
    construct s = .ok (s', f) ∧ Dict.get? s "single-boundary-machine" = some "A".toList ∧
    (rx "A".toList line).isSome ∧ rx "(.*)".toList line = none ∧ readLine rx f line = .ok .nothing :=
  ⟨Dict.set exampleSettings "single-boundary-machine" "A".toList, _, _,
    fun p _ => if p = "A".toList then some [] else none, "</s>".toList, rfl, by decide, by decide, by decide, by decide⟩

/-- C85 is false: with the mechanism `left-right`, the first line that is no item raises an exception. -/
theorem C85_false_left_right (s s' : Settings) (f : Formatter) (rx : Regex) (h : construct s = .ok (s', f))
    (hm : Dict.get? s "boundary-detection-mechanism" = some "left-right".toList) (lm : Str)
    (hl : Dict.get? s "line-machine" = some lm) (line : Str) (hx : rx lm line = none) :
    readLine rx f line = .error .attribute := by
  obtain ⟨_, _, _, _, _, _, _, _, _, _, _, _, _, _, hlm, hb, _⟩ := construct_ok h
  have hlm' : f.lineMachine = some lm := by
    unfold lineMachines at hlm
    rw [hl] at hlm
    simp only [Except.ok.injEq, Prod.mk.injEq] at hlm
    exact hlm.1.symm
  have hs : f.single = none := by
    unfold boundaryMachines at hb
    obtain ⟨mech, h1, hb⟩ := bind_ok hb
    unfold getKey at h1
    rw [hm] at h1
    obtain rfl := Except.ok.inj h1
    rw [if_neg (by decide), if_pos rfl] at hb
    obtain ⟨l, _, hb⟩ := bind_ok hb
    obtain ⟨r, _, hb⟩ := bind_ok hb
    simp only [pure, Except.pure, Except.ok.injEq, Prod.mk.injEq] at hb
    exact hb.1.symm
  unfold readLine matchLine separatorLine
  rw [hlm', hs]
  simp only [attr, bind, Except.bind, pure, Except.pure, hx]

example : ∃ s' f, construct [("line-machine", "(.*)".toList), ("boundary-detection-mechanism", "left-right".toList),
    ("left-boundary-machine", "<s>".toList), ("right-boundary-machine", "</s>".toList),
    ("line-format", "word,lemma,pos".toList), ("type", "lemma/pos".toList), ("token", "word/pos/fid/lid".toList)]
    = .ok (s', f) := ⟨_, _, rfl⟩

/-! ## C86: columns -/

/-- C86, partial: a column of the corpus gives the content of that column.
Missing: other columns (`C86_false`). -/
theorem C86_partial (s s' : Settings) (f : Formatter) (h : construct s = .ok (s', f)) (cols : List Str)
    (hc : ColumnsOf s cols) (m : Match) (c fid lid : Str)
    (hn : c ≠ "type".toList ∧ c ≠ "colloc".toList ∧ c ≠ "token".toList) (i : Nat) (hi : ColumnAt cols c i) :
    get f m c fid lid = match m[i + 1]? with | some g => .ok g | none => .error .index := by
  obtain ⟨cols', _, _, _, hcols, _, _, _, hids, _⟩ := construct_ok h
  obtain rfl := columnsOf_unique hc hcols
  unfold get
  rw [if_neg hn.1, if_neg hn.2.1, if_neg hn.2.2, hids, (colids_get? cols c (i + 1)).2 ⟨i, rfl, hi⟩]
  rfl

/-- C86 is false: a column that the corpus does not have gives the whole matched line. -/
theorem C86_false (s s' : Settings) (f : Formatter) (h : construct s = .ok (s', f)) (cols : List Str)
    (hc : ColumnsOf s cols) (line : Option Str) (groups : List (Option Str)) (c fid lid : Str)
    (hn : c ≠ "type".toList ∧ c ≠ "colloc".toList ∧ c ≠ "token".toList) (hi : c ∉ cols) :
    get f (line :: groups) c fid lid = .ok line := by
  obtain ⟨cols', _, _, _, hcols, _, _, _, hids, _⟩ := construct_ok h
  obtain rfl := columnsOf_unique hc hcols
  unfold get
  rw [if_neg hn.1, if_neg hn.2.1, if_neg hn.2.2, hids, (colids_none cols c).2 hi]
  rfl

example : "lemma".toList ∉ ["word".toList, "pos".toList] ∧ "lemma".toList ≠ "type".toList ∧
    "lemma".toList ≠ "colloc".toList ∧ "lemma".toList ≠ "token".toList ∧
    ColumnAt ["word".toList, "pos".toList] "pos".toList 1 := by
  refine ⟨by decide, by decide, by decide, by decide, rfl, ?_⟩
  intro j hj
  rw [List.getElem?_eq_none (by simp; omega)]
  simp

/-! ## C87: the caller's settings -/

/-- C87, partial: constructing a formatter changes no setting other than `colloc`, and none at all if `colloc`
is set.  Missing: settings without `colloc` (`C87_false`). -/
theorem C87_partial (s s' : Settings) (f : Formatter) (h : construct s = .ok (s', f)) :
    (∀ k, k ≠ "colloc" → Dict.get? s' k = Dict.get? s k) ∧ ((Dict.get? s "colloc").isSome → s' = s) := by
  obtain ⟨_, tyf, _, _, _, _, _, _, _, _, _, _, hs, _⟩ := construct_ok h
  subst hs
  constructor
  · intro k hk
    split
    · rfl
    · rw [Dict.get?_set, if_neg (Ne.symm hk)]
  · intro hc
    have : Dict.contains s "colloc" = true := by simpa [Dict.contains] using hc
    rw [if_pos this]

/-- C87 is false: the dictionary that the caller passed gets a `colloc` setting. -/
theorem C87_false (s s' : Settings) (f : Formatter) (h : construct s = .ok (s', f))
    (hn : Dict.get? s "colloc" = none) : Dict.get? s' "colloc" = Dict.get? s "type" ∧ s' ≠ s := by
  obtain ⟨_, tyf, _, _, _, hty, _, _, _, _, _, _, hs, _⟩ := construct_ok h
  have hc : ¬ Dict.contains s "colloc" = true := by simp [Dict.contains, hn]
  rw [if_neg hc] at hs
  have hg : Dict.get? s' "colloc" = some tyf := by rw [hs, Dict.get?_set, if_pos rfl]
  refine ⟨by rw [hg, hty], ?_⟩
  rintro rfl
  rw [hn] at hg
  exact (nomatch hg)

/-! ## C88: line machines -/

/-- C88, partial: with `line-machine`, every line can be matched.  Missing: the other names (`C88_false`). -/
theorem C88_partial (s s' : Settings) (f : Formatter) (rx : Regex) (h : construct s = .ok (s', f)) (lm : Str)
    (hl : Dict.get? s "line-machine" = some lm) (line : Str) : matchLine rx f line = .ok (rx lm line) := by
  obtain ⟨_, _, _, _, _, _, _, _, _, _, _, _, _, _, hlm, hb, _⟩ := construct_ok h
  unfold lineMachines at hlm
  rw [hl] at hlm
  simp only [Except.ok.injEq, Prod.mk.injEq] at hlm
  unfold matchLine
  rw [← hlm.1]
  rfl

/-- C88 is false: with any of the other three machines and no `line-machine`, a formatter is built and the
first line raises an exception. -/
theorem C88_false (s s' : Settings) (f : Formatter) (rx : Regex) (h : construct s = .ok (s', f))
    (hl : Dict.get? s "line-machine" = none) (line : Str) : readLine rx f line = .error .attribute := by
  obtain ⟨_, _, _, _, _, _, _, _, _, _, _, _, _, _, hlm, hb, _⟩ := construct_ok h
  unfold lineMachines at hlm
  rw [hl] at hlm
  have : f.lineMachine = none := by
    split at hlm <;> simp_all
  unfold readLine matchLine
  rw [this]
  rfl

example : ∃ s s' f, construct s = .ok (s', f) ∧ Dict.get? s "line-machine" = none :=
  ⟨("type-line-machine", "(.*)".toList) :: exampleSettings.drop 1, _, _, rfl, by decide⟩

/-- C88, which machine is used: a formatter has exactly one, that of the first of the four names that is set, under that name; if none
is set, it is a `ValueError`. -/
theorem C88_machine (s : Settings) :
    ((∀ n ∈ ["line-machine", "type-line-machine", "colloc-line-machine", "token-line-machine"], Dict.get? s n = none) →
      construct s = .error .value) ∧
    ∀ s' f, construct s = .ok (s', f) → ∃ (i : Nat) (m : Str),
      (["line-machine", "type-line-machine", "colloc-line-machine", "token-line-machine"].map (Dict.get? s))[i]? = some (some m) ∧
      (∀ k < i, (["line-machine", "type-line-machine", "colloc-line-machine", "token-line-machine"].map (Dict.get? s))[k]? =
        some none) ∧
      [f.lineMachine, f.typeMachine, f.collocMachine, f.tokenMachine] = [none, none, none, none].set i (some m) := by
  constructor
  · intro h
    have h1 := h "line-machine" (by simp)
    have h2 := h "type-line-machine" (by simp)
    have h3 := h "colloc-line-machine" (by simp)
    have h4 := h "token-line-machine" (by simp)
    unfold construct lineMachines
    rw [h1, h2, h3, h4]
    rfl
  · intro s' f h
    obtain ⟨_, _, _, _, _, _, _, _, _, _, _, _, _, _, hlm, hb, _⟩ := construct_ok h
    unfold lineMachines at hlm
    cases h1 : Dict.get? s "line-machine" with
    | some m =>
      rw [h1] at hlm
      simp only [Except.ok.injEq, Prod.mk.injEq] at hlm
      obtain ⟨e1, e2, e3, e4⟩ := hlm
      refine ⟨0, m, by simp [h1], fun k hk => absurd hk (by omega), ?_⟩
      rw [← e1, ← e2, ← e3, ← e4]; rfl
    | none =>
      cases h2 : Dict.get? s "type-line-machine" with
      | some m =>
        rw [h1, h2] at hlm
        simp only [Except.ok.injEq, Prod.mk.injEq] at hlm
        obtain ⟨e1, e2, e3, e4⟩ := hlm
        refine ⟨1, m, by simp [h2], fun k hk => ?_, ?_⟩
        · obtain rfl : k = 0 := by omega
          simp [h1]
        · rw [← e1, ← e2, ← e3, ← e4]; rfl
      | none =>
        cases h3 : Dict.get? s "colloc-line-machine" with
        | some m =>
          rw [h1, h2, h3] at hlm
          simp only [Except.ok.injEq, Prod.mk.injEq] at hlm
          obtain ⟨e1, e2, e3, e4⟩ := hlm
          refine ⟨2, m, by simp [h3], fun k hk => ?_, ?_⟩
          · rcases (by omega : k = 0 ∨ k = 1) with rfl | rfl
            · simp [h1]
            · simp [h2]
          · rw [← e1, ← e2, ← e3, ← e4]; rfl
        | none =>
          cases h4 : Dict.get? s "token-line-machine" with
          | some m =>
            rw [h1, h2, h3, h4] at hlm
            simp only [Except.ok.injEq, Prod.mk.injEq] at hlm
            obtain ⟨e1, e2, e3, e4⟩ := hlm
            refine ⟨3, m, by simp [h4], fun k hk => ?_, ?_⟩
            · rcases (by omega : k = 0 ∨ k = 1 ∨ k = 2) with rfl | rfl | rfl
              · simp [h1]
              · simp [h2]
              · simp [h3]
            · rw [← e1, ← e2, ← e3, ← e4]; rfl
          | none =>
            rw [h1, h2, h3, h4] at hlm
            exact (nomatch hlm)

example : ∃ s' f, construct (("type-line-machine", "a".toList) :: exampleSettings) = .ok (s', f) ∧ f.typeMachine = none :=
  ⟨_, _, rfl, rfl⟩

end Verif.Items
