import Verif.Regex.PropsLayout
import Verif.Regex.PropsTokenText

/-!
# C197: from the text of a corpus in any format of columns to tokens
-/

namespace Verif.Regex

open Verif.Py
open Verif.Vocab.Plain (Str isSpace isBreak natStr)
open Verif.Vocab (Vocab)
open Verif.Items (Settings Formatter construct getToken tokenOf splitext split join Rendered)
open Verif.Window (segments segsFrom updateFile tokCallbacks tokensOf keepOf Token)

/-! ### Specification -/

/-- An item of a corpus: its type, its collocate and its name as a token. -/
structure Occ where
  type : Str
  colloc : Str
  name : Str
  deriving DecidableEq, Repr

/-- The name of a token: the parts of the token format that are columns, then the file and the number of the line. -/
def tokenName (names vals : List Str) (parts : List Str) (file : Str) (n : Nat) : Str :=
  join '/' (parts.map (fun c => (vals[names.idxOf c]?).getD []) ++ [file, natStr n])

/-- The item of line number `n` of a file, if its columns fit. -/
def Layout.entry (a : Layout) (tok : List Str) (file : Str) (n : Nat) (line : Str) : Option Occ :=
  (expected a.cols (split '\t' line)).map (fun e => ⟨pick a.names e.2 a.type, pick a.names e.2 a.colloc, tokenName a.names e.2 tok file n⟩)

/-- The sections of a file, from line number `n` on. -/
def Layout.entries (a : Layout) (tok : List Str) (file : Str) : Nat → List Str → List (List Occ)
  | _, [] => [[]]
  | n, l :: ls =>
    match a.entry tok file n l with
    | some x => (a.entries tok file (n + 1) ls).modifyHead (x :: ·)
    | none => if a.ends l then [] :: a.entries tok file (n + 1) ls else a.entries tok file (n + 1) ls

/-- The tokens of a type in a section: each item of the type, with the collocates within the spans that are let through. -/
def tokensIn (keep : Str → Bool) (L R : Nat) (t : Str) (xs : List Occ) : List Seen :=
  xs.zipIdx.filterMap (fun p =>
    if p.1.type = t then
      some { name := p.1.name
             left := (((xs.take p.2).drop (p.2 - L)).map Occ.colloc).filter keep
             right := (((xs.drop (p.2 + 1)).take R).map Occ.colloc).filter keep }
    else none)

/-! ### Proof -/

section
variable (u : Tables) {s s' : Settings} {f : Formatter} {a : Layout} {tok : List Str}

theorem rendered_token {a : Layout} (hn : a.names.Nodup) {whole : Str} {vals : List Str} (hl : a.names.length = vals.length)
    {parts : List Str} (hp : ∀ c ∈ parts, c ∈ a.names) (file : Str) (n : Nat) :
    Rendered a.names (some whole :: vals.map some) parts [file, natStr n] (tokenName a.names vals parts file n) := by
  obtain ⟨vs, h1, h2⟩ := rendered_pick hn (whole := whole) hl hp
  refine ⟨parts.map (fun c => (vals[a.names.idxOf c]?).getD []), ?_, rfl⟩
  clear h1 h2 vs
  induction parts with
  | nil => exact .nil
  | cons p ps ih =>
    refine .cons ⟨_, columnAt_idxOf hn (hp p (List.mem_cons_self ..)), ?_⟩ (ih fun c hc => hp c (List.mem_cons_of_mem _ hc))
    have hlt := List.idxOf_lt_length_iff.2 (hp p (List.mem_cons_self ..))
    rw [List.getElem?_cons_succ, List.getElem?_map, List.getElem?_eq_getElem (hl ▸ hlt)]
    simp only [List.getElem?_eq_getElem (hl ▸ hlt), Option.map_some, Option.getD_some]

/-- What the code's match with its line number stands for. -/
def entryOf (u : Tables) (f : Formatter) (path : Str) (x : Verif.Items.Match × Nat) : Option Occ :=
  match tokenOf f x.1 path x.2 with
  | .ok n => some ⟨(asFormatter (reMatch u) f).getType x.1, (asFormatter (reMatch u) f).getColloc x.1, n⟩
  | .error _ => none

theorem layout_entry (hf : construct s = .ok (s', f)) (hd : Describes s a) (htok : ∃ fmt x y, Dict.get? s "token" = some fmt ∧
    split '/' fmt = tok ++ [x, y]) (path line : Str) (n : Nat) :
    match (asFormatter (reMatch u) f).matchLine line with
    | some m => ∃ e, a.entry tok (splitext path) n line = some e ∧ entryOf u f path (m, n) = some e
    | none => a.entry tok (splitext path) n line = none := by
  rw [layout_match u hf hd]
  unfold Layout.entry
  cases he : expected a.cols (split '\t' line) with
  | none => rfl
  | some e =>
    obtain ⟨h1, h2⟩ := layout_names hf hd he
    refine ⟨_, rfl, ?_⟩
    obtain ⟨fmt, x, y, hg, hsp⟩ := htok
    have hl : a.names.length = e.2.length := by rw [hd.kept, expected_length he]
    have ht : tokenOf f (some e.1 :: e.2.map some) path n = .ok (tokenName a.names e.2 tok (splitext path) n) := by
      rw [tokenOf]
      refine ((Verif.Items.C84_columns s s' f hf a.names hd.names _).2.2 _ _ _).2 ⟨fmt, hg, tok, x, y, .inl hsp, ?_⟩
      exact rendered_token hd.nodup hl ((Verif.Items.C84_refused s s' f hf a.names hd.names).2.2 fmt tok x y hg hsp) _ _
    have g1 : (asFormatter (reMatch u) f).getType (some e.1 :: e.2.map some) = pick a.names e.2 a.type := by simp only [asFormatter, h1]
    have g2 : (asFormatter (reMatch u) f).getColloc (some e.1 :: e.2.map some) = pick a.names e.2 a.colloc := by simp only [asFormatter, h2]
    simp only [entryOf]
    rw [ht, g1, g2]

theorem layout_entries_ne (a : Layout) (tok : List Str) (file : Str) (n : Nat) (ls : List Str) : a.entries tok file n ls ≠ [] := by
  induction ls generalizing n with
  | nil => simp [Layout.entries]
  | cons x xs ih =>
    rw [Layout.entries]
    split
    · simpa using ih (n + 1)
    · split
      · simp
      · exact ih (n + 1)

theorem layout_segs_entries (hf : construct s = .ok (s', f)) (hd : Describes s a) (htok : ∃ fmt x y, Dict.get? s "token" = some fmt ∧
    split '/' fmt = tok ++ [x, y]) (path : Str) {lines : List Str} (hl : ∀ l ∈ lines, Fine l)
    (cur : List (Verif.Items.Match × Nat)) (lid : Nat) :
    (segsFrom (asFormatter (reMatch u) f) cur lid lines).map (List.map (entryOf u f path)) =
      ((a.entries tok (splitext path) (lid + 1) lines).map (List.map some)).modifyHead (cur.map (entryOf u f path) ++ ·) := by
  induction lines generalizing cur lid with
  | nil =>
    rw [Verif.Window.segsFrom_nil]
    simp [Layout.entries]
  | cons l ls ih =>
    have ih := fun cur lid => ih (fun x hx => hl x (List.mem_cons_of_mem _ hx)) cur lid
    have hne := layout_entries_ne a tok (splitext path) (lid + 1 + 1) ls
    have hent := layout_entry u hf hd htok path l (lid + 1)
    rw [Verif.Window.segsFrom_cons, Layout.entries]
    cases hm : (asFormatter (reMatch u) f).matchLine l with
    | some m =>
      rw [hm] at hent
      obtain ⟨e, h1, h2⟩ := hent
      rw [h1]
      simp only
      rw [ih]
      cases hs : a.entries tok (splitext path) (lid + 1 + 1) ls with
      | nil => exact absurd hs hne
      | cons x xs => simp [h2]
    | none =>
      rw [hm] at hent
      simp only at hent
      have hsep := layout_sep u hf hd (hl l (List.mem_cons_self ..)) hm
      rw [hent]
      simp only
      by_cases hb : a.ends l
      · rw [if_pos (hsep.2 hb), if_pos hb, List.map_cons, ih]
        cases hs : a.entries tok (splitext path) (lid + 1 + 1) ls with
        | nil => exact absurd hs hne
        | cons x xs => simp
      · rw [if_neg (fun h => hb (hsep.1 h)), if_neg hb, ih]

theorem layout_segments (hf : construct s = .ok (s', f)) (hd : Describes s a) (htok : ∃ fmt x y, Dict.get? s "token" = some fmt ∧
    split '/' fmt = tok ++ [x, y]) (path : Str) {lines : List Str} (hl : ∀ l ∈ lines, Fine l) :
    (segments (asFormatter (reMatch u) f) (fileLines (textOf lines))).map (List.map (entryOf u f path)) =
      (a.entries tok (splitext path) 1 lines).map (List.map some) := by
  rw [fileLines_text hl, Verif.Window.segments_eq, layout_segs_entries u hf hd htok path hl]
  cases (a.entries tok (splitext path) (0 + 1) lines).map (List.map some) <;> rfl

theorem filterMap_of_positions {α β γ : Type} {g : α → Option γ} {g' : β → Option γ} :
    ∀ {as : List α} {bs : List β}, as.length = bs.length →
      (∀ (i : Nat) (x : α) (y : β), as[i]? = some x → bs[i]? = some y → g x = g' y) → as.filterMap g = bs.filterMap g'
  | [], [], _, _ => rfl
  | x :: as, y :: bs, hl, h => by
    have h0 := h 0 x y rfl rfl
    have ih := filterMap_of_positions (as := as) (bs := bs) (by simpa using hl) (fun i x' y' hx hy => h (i + 1) x' y' (by simpa using hx) (by simpa using hy))
    rw [List.filterMap_cons, List.filterMap_cons, h0, ih]

theorem view_entries (u : Tables) (f : Formatter) (path : Str) (keep : Str → Bool) (L R : Nat) (t : Str)
    {ms : List (Verif.Items.Match × Nat)} {xs : List Occ} (h : ms.map (entryOf u f path) = xs.map some) :
    (tokensOf (asFormatter (reMatch u) f) keep L R t ms).map (view u f path) = (tokensIn keep L R t xs).map some := by
  have hlen : ms.length = xs.length := by simpa using congrArg List.length h
  have hat : ∀ (i : Nat) (m : Verif.Items.Match × Nat) (e : Occ), ms[i]? = some m → xs[i]? = some e →
      (asFormatter (reMatch u) f).getType m.1 = e.type ∧ (asFormatter (reMatch u) f).getColloc m.1 = e.colloc ∧
      tokenOf f m.1 path m.2 = .ok e.name := by
    intro i m e h1 h2
    have := congrArg (fun l => l[i]?) h
    simp only [List.getElem?_map, h1, h2, Option.map_some, Option.some.injEq] at this
    unfold entryOf at this
    split at this
    · rename_i n hn
      obtain rfl := Option.some.inj this
      exact ⟨rfl, rfl, hn⟩
    · cases this
  have hcol : ms.map (fun m => (asFormatter (reMatch u) f).getColloc m.1) = xs.map Occ.colloc := by
    refine List.ext_getElem? fun i => ?_
    rw [List.getElem?_map, List.getElem?_map]
    by_cases hi : i < ms.length
    · rw [List.getElem?_eq_getElem hi, List.getElem?_eq_getElem (hlen ▸ hi)]
      simp only [Option.map_some]
      rw [(hat i _ _ (List.getElem?_eq_getElem hi) (List.getElem?_eq_getElem (hlen ▸ hi))).2.1]
    · rw [List.getElem?_eq_none (by omega), List.getElem?_eq_none (by omega)]
      rfl
  have hfil : ∀ ys : List (Verif.Items.Match × Nat),
      (ys.filter (fun y => keep ((asFormatter (reMatch u) f).getColloc y.1))).map (fun y => (asFormatter (reMatch u) f).getColloc y.1) =
        (ys.map (fun y => (asFormatter (reMatch u) f).getColloc y.1)).filter keep := by
    intro ys
    rw [List.filter_map]
    rfl
  unfold tokensOf tokensIn
  rw [List.map_filterMap, List.map_filterMap]
  refine filterMap_of_positions (by simpa using hlen) fun i p q hp hq => ?_
  rw [List.getElem?_zipIdx] at hp hq
  obtain ⟨m, hm, rfl⟩ := Option.map_eq_some_iff.1 hp
  obtain ⟨e, he, rfl⟩ := Option.map_eq_some_iff.1 hq
  obtain ⟨a1, a2, a3⟩ := hat i _ _ hm he
  simp only
  rw [a1]
  by_cases ht : e.type = t
  · rw [if_pos ht, if_pos ht]
    simp only [Option.map_some, Option.some.injEq]
    unfold view
    simp only
    rw [a3]
    simp only [Option.some.injEq, Seen.mk.injEq, true_and]
    rw [hfil, hfil]
    simp only [List.map_drop, List.map_take, hcol, and_self]
  · rw [if_neg ht, if_neg ht]
    rfl

/-- **C197** (partial): the tokens of the queries, from the text of a file in any format of columns.  Missing: right span 0 if a
section is empty; then `IndexError` is raised. -/
theorem C197_partial (hf : construct s = .ok (s', f)) (hd : Describes s a) (htok : ∃ fmt x y, Dict.get? s "token" = some fmt ∧
    split '/' fmt = tok ++ [x, y]) {lines : List Str} (hl : ∀ l ∈ lines, Fine l) (L R : Nat) (colv : Option (Vocab Str)) (path : Str)
    (d : Dict Str (List (Token Verif.Items.Match))) :
    (¬ (R = 0 ∧ [] ∈ a.entries tok (splitext path) 1 lines) →
      ∃ d', updateFile (asFormatter (reMatch u) f) L R (tokCallbacks (asFormatter (reMatch u) f) colv) d
          (fileLines (textOf lines)) = .ok d' ∧
        ∀ t, ∃ new, d'.get? t = (d.get? t).map (· ++ new) ∧
          new.map (view u f path) = ((a.entries tok (splitext path) 1 lines).flatMap (tokensIn (keepOf colv) L R t)).map some) ∧
    (R = 0 ∧ [] ∈ a.entries tok (splitext path) 1 lines →
      updateFile (asFormatter (reMatch u) f) L R (tokCallbacks (asFormatter (reMatch u) f) colv) d
          (fileLines (textOf lines)) = .error .indexError) := by
  have hC := Verif.Window.C11_tokens_partial (asFormatter (reMatch u) f) L R colv (fileLines (textOf lines))
  have hseg := layout_segments u hf hd htok path hl
  have hmem : [] ∈ segments (asFormatter (reMatch u) f) (fileLines (textOf lines)) ↔ [] ∈ a.entries tok (splitext path) 1 lines := by
    have h1 : [] ∈ segments (asFormatter (reMatch u) f) (fileLines (textOf lines)) ↔
        [] ∈ (segments (asFormatter (reMatch u) f) (fileLines (textOf lines))).map (List.map (entryOf u f path)) := by simp
    rw [h1, hseg]
    simp
  rw [hmem] at hC
  refine ⟨fun hR => ?_, fun hR => hC.2 hR d⟩
  obtain ⟨d', h1, h2⟩ := hC.1 hR d
  refine ⟨d', h1, fun t => ⟨_, h2 t, ?_⟩⟩
  generalize segments (asFormatter (reMatch u) f) (fileLines (textOf lines)) = segs at hseg
  generalize a.entries tok (splitext path) 1 lines = ents at hseg
  clear hC hmem h1 h2 hR
  induction segs generalizing ents with
  | nil =>
    cases ents with
    | nil => rfl
    | cons e es => simp at hseg
  | cons sg sgs ih =>
    cases ents with
    | nil => simp at hseg
    | cons e es =>
      rw [List.map_cons, List.map_cons, List.cons.injEq] at hseg
      rw [List.flatMap_cons, List.flatMap_cons, List.map_append, List.map_append, ih es hseg.2]
      rw [view_entries u f path (keepOf colv) L R t hseg.1]

end

/-! ### The format of the tutorial -/

theorem tutorial_token : ∃ fmt x y, Dict.get? tutorial "token" = some fmt ∧ split '/' fmt = ["lemma".toList, "pos".toList] ++ [x, y] :=
  ⟨_, "fid".toList, "lid".toList, rfl, by decide +kernel⟩

example : (tutorialLayout.entries ["lemma".toList, "pos".toList] "StanfDepSents.1".toList 1 tutorialLines).flatMap
      (tokensIn (fun _ => true) 4 4 "girl/N".toList) = [⟨"girl/N/StanfDepSents.1/3".toList, ["the/D".toList], []⟩] ∧
    splitext "StanfDepSents.1.conll".toList = "StanfDepSents.1".toList := by
  decide +kernel

/-- **C197 is false** as it stands: with right span 0 the sentences of the tutorial, which end with a separator line, raise
`IndexError`. -/
theorem C197_false (u : Tables) (L : Nat) (colv : Option (Vocab Str)) (d : Dict Str (List (Token Verif.Items.Match))) :
    ∃ s' f, construct tutorial = .ok (s', f) ∧
      updateFile (asFormatter (reMatch u) f) L 0 (tokCallbacks (asFormatter (reMatch u) f) colv) d (fileLines (textOf tutorialLines)) =
        .error .indexError := by
  obtain ⟨s', f, hf⟩ := tutorial_describes.1
  refine ⟨s', f, hf, (C197_partial u hf tutorial_describes.2 tutorial_token tutorial_fine L 0 colv [] d).2 ⟨rfl, ?_⟩⟩
  decide +kernel

end Verif.Regex
