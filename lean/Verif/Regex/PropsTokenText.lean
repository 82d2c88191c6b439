import Verif.Regex.PropsCooc
import Verif.Items.Nodes

/-!
# C189: from the text of a corpus to tokens
-/

namespace Verif.Regex

open Verif.Py
open Verif.Vocab.Plain (Str isSpace isBreak natStr)
open Verif.Vocab (Vocab)
open Verif.Items (Settings Formatter construct readLine matchLine separatorLine getType getColloc tokenOf splitext)
open Verif.Window (segments segsFrom segTexts updateFile tokCallbacks tokensOf keepOf Token)

/-- A line of a corpus with an item: word, part of speech, lemma and line number. -/
structure Place where
  word : Str
  pos : Str
  lemm : Str
  line : Nat
  deriving DecidableEq, Repr

/-- `lemma/pos`. -/
def Place.type (x : Place) : Str := x.lemm ++ '/' :: x.pos

/-- `word/pos/file/line`. -/
def Place.token (file : Str) (x : Place) : Str := x.word ++ '/' :: (x.pos ++ '/' :: (file ++ '/' :: natStr x.line))

/-- The sections between the boundary lines, with line numbers from `n` on. -/
def places : Nat → List Row → List (List Place)
  | _, [] => [[]]
  | n, .boundary :: rs => [] :: places (n + 1) rs
  | n, .other _ :: rs => places (n + 1) rs
  | n, .item w p l :: rs =>
    match places (n + 1) rs with
    | [] => [[⟨w, p, l, n⟩]]
    | s :: ss => (⟨w, p, l, n⟩ :: s) :: ss

theorem places_ne (n : Nat) (rs : List Row) : places n rs ≠ [] := by
  induction rs generalizing n with
  | nil => simp [places]
  | cons r rs ih =>
    cases r with
    | boundary => simp [places]
    | other line => rw [places]; exact ih _
    | item w p l =>
      rw [places]
      split <;> simp

theorem places_item (n : Nat) (w p l : Str) (rs : List Row) :
    places n (.item w p l :: rs) = (places (n + 1) rs).modifyHead (⟨w, p, l, n⟩ :: ·) := by
  rw [places]
  cases hs : places (n + 1) rs with
  | nil => exact absurd hs (places_ne _ rs)
  | cons s ss => rfl

/-- A token as the user sees it: its name and its contexts before and after. -/
structure Seen where
  name : Str
  left : List Str
  right : List Str
  deriving DecidableEq, Repr

/-- The tokens of a type in a section: each place of the type, with the items within the spans that are let through. -/
def seenIn (file : Str) (keep : Str → Bool) (L R : Nat) (t : Str) (xs : List Place) : List Seen :=
  (xs.zipIdx).filterMap (fun p =>
    if p.1.type = t then
      some { name := p.1.token file
             left := (((xs.take p.2).drop (p.2 - L)).map Place.type).filter keep
             right := (((xs.drop (p.2 + 1)).take R).map Place.type).filter keep }
    else none)

/-- What the code's token stands for: its name (`tokenOf`, none if it cannot be built) and its contexts. -/
def view (u : Tables) (f : Formatter) (path : Str) (tok : Token Verif.Items.Match) : Option Seen :=
  match tokenOf f tok.m path tok.lid with
  | .ok n => some ⟨n, tok.left.map (fun y => (asFormatter (reMatch u) f).getColloc y.1), tok.right.map (fun y => (asFormatter (reMatch u) f).getColloc y.1)⟩
  | .error _ => none

/-- The match of a place. -/
def Place.found (x : Place) : Verif.Items.Match × Nat :=
  ([some (x.word ++ '\t' :: (x.pos ++ '\t' :: x.lemm)), some x.word, some x.pos, some x.lemm], x.line)

theorem shipped_item (u : Tables) {s' : Settings} {f : Formatter} (hf : construct shipped = .ok (s', f)) {w p l : Str}
    (h : (Row.item w p l).Fine) (n : Nat) :
    (asFormatter (reMatch u) f).matchLine (Row.item w p l).text = some (Place.found ⟨w, p, l, n⟩).1 := by
  have hlm := lineMachine_of hf shipped_machine
  have hread := shipped_line u hf h
  unfold readLine matchLine at hread
  rw [hlm] at hread
  simp only [Verif.Items.attr, bind, Except.bind, pure, Except.pure] at hread
  cases hx : reMatch u (machine ['\\', 't'] (List.replicate (2 + 1) .keep)) (Row.text (.item w p l)) with
  | some m =>
    rw [hx] at hread
    simp only [Except.ok.injEq] at hread
    simp only [asFormatter, hlm]
    rw [hx]
    simp only [Row.line, Verif.Items.Line.item.injEq] at hread
    rw [hread]
    rfl
  | none =>
    exfalso
    rw [hx] at hread
    simp only at hread
    split at hread
    · cases hread
    · split at hread <;> cases hread

theorem segs_places (u : Tables) {s' : Settings} {f : Formatter} (hf : construct shipped = .ok (s', f)) {rows : List Row}
    (h : ∀ r ∈ rows, r.Fine) (cur : List (Verif.Items.Match × Nat)) (lid : Nat) :
    segsFrom (asFormatter (reMatch u) f) cur lid (rows.map Row.text) =
      ((places (lid + 1) rows).map (List.map Place.found)).modifyHead (cur ++ ·) := by
  induction rows generalizing cur lid with
  | nil =>
    rw [List.map_nil, Verif.Window.segsFrom_nil]
    simp [places]
  | cons r rs ih =>
    have ih := fun cur lid => ih (fun x hx => h x (List.mem_cons_of_mem _ hx)) cur lid
    rw [List.map_cons, Verif.Window.segsFrom_cons]
    cases r with
    | item w p l =>
      rw [shipped_item u hf (h _ (List.mem_cons_self ..)) (lid + 1)]
      simp only
      rw [ih, places_item]
      cases hs : places (lid + 1 + 1) rs with
      | nil => exact absurd hs (places_ne _ rs)
      | cons s ss => simp [Place.found]
    | other line =>
      obtain ⟨h1, h2⟩ := (shipped_rows u hf (h _ (List.mem_cons_self ..))).2.2 line rfl
      rw [h1]
      simp only
      rw [if_neg (by rw [h2]; exact Bool.false_ne_true), ih, places]
    | boundary =>
      obtain ⟨h1, h2⟩ := (shipped_rows u hf (h _ (List.mem_cons_self ..))).2.1 rfl
      rw [h1]
      simp only
      rw [if_pos h2, ih, places]
      cases hs : places (lid + 1 + 1) rs with
      | nil => exact absurd hs (places_ne _ rs)
      | cons s ss => simp

theorem segments_places (u : Tables) {s' : Settings} {f : Formatter} (hf : construct shipped = .ok (s', f)) {rows : List Row}
    (h : ∀ r ∈ rows, r.Fine) :
    segments (asFormatter (reMatch u) f) (fileLines (textOf (rows.map Row.text))) = (places 1 rows).map (List.map Place.found) := by
  rw [fileLines_text (by
      intro l hl
      obtain ⟨r, hr, rfl⟩ := List.mem_map.1 hl
      exact Row.fine (h r hr)), Verif.Window.segments_eq, segs_places u hf h]
  cases (places (0 + 1) rows).map (List.map Place.found) <;> rfl

theorem found_names (u : Tables) {s' : Settings} {f : Formatter} (hf : construct shipped = .ok (s', f)) (x : Place) :
    (asFormatter (reMatch u) f).getType x.found.1 = x.type ∧ (asFormatter (reMatch u) f).getColloc x.found.1 = x.type ∧
    ∀ path, tokenOf f x.found.1 path x.found.2 = .ok (x.token (splitext path)) := by
  have ht := (C182_shipped u hf (rows := []) (by simp)).2 x.word x.pos x.lemm x.found.1 rfl
  refine ⟨?_, ?_, fun path => ?_⟩
  · simp only [asFormatter, ht.1]; rfl
  · simp only [asFormatter, ht.2.1]; rfl
  · rw [tokenOf, ht.2.2]; rfl

theorem view_tokens (u : Tables) {s' : Settings} {f : Formatter} (hf : construct shipped = .ok (s', f)) (path : Str) (keep : Str → Bool)
    (L R : Nat) (t : Str) (xs : List Place) :
    (tokensOf (asFormatter (reMatch u) f) keep L R t (xs.map Place.found)).map (view u f path) =
      (seenIn (splitext path) keep L R t xs).map some := by
  unfold tokensOf seenIn
  have hz : (xs.map Place.found).zipIdx = xs.zipIdx.map (fun p => (p.1.found, p.2)) := by
    rw [List.zipIdx_map]
    rfl
  rw [hz, List.filterMap_map, List.map_filterMap, List.map_filterMap]
  refine List.filterMap_congr fun p _ => ?_
  obtain ⟨n1, n2, n3⟩ := found_names u hf p.1
  simp only [Function.comp_apply, n1]
  by_cases ht : p.1.type = t
  · simp only [ht, if_true, Option.map_some, view, n3, Option.some.injEq, Seen.mk.injEq, true_and]
    have hf2 : ∀ ys : List Place, ((ys.map Place.found).filter (fun y => keep ((asFormatter (reMatch u) f).getColloc y.1))).map
        (fun y => (asFormatter (reMatch u) f).getColloc y.1) = (ys.map Place.type).filter keep := by
      intro ys
      induction ys with
      | nil => rfl
      | cons y ys ih =>
        have := (found_names u hf y).2.1
        by_cases hk : keep y.type <;> simp [this, hk] <;> simpa using ih
    rw [← List.map_take, ← List.map_drop, ← List.map_drop, ← List.map_take]
    exact ⟨hf2 _, hf2 _⟩
  · simp [ht]

/-- **C189** (partial): the tokens of the queries, from the text of a file in the shipped format.  Missing: right span 0 if two
boundary lines follow each other or one stands at an end of the file; then `IndexError` is raised. -/
theorem C189_partial (u : Tables) {s' : Settings} {f : Formatter} (hf : construct shipped = .ok (s', f)) {rows : List Row}
    (h : ∀ r ∈ rows, r.Fine) (L R : Nat) (colv : Option (Vocab Str)) (path : Str) (d : Dict Str (List (Token Verif.Items.Match))) :
    (¬ (R = 0 ∧ [] ∈ places 1 rows) →
      ∃ d', updateFile (asFormatter (reMatch u) f) L R (tokCallbacks (asFormatter (reMatch u) f) colv) d
          (fileLines (textOf (rows.map Row.text))) = .ok d' ∧
        ∀ t, ∃ new, d'.get? t = (d.get? t).map (· ++ new) ∧
          new.map (view u f path) = ((places 1 rows).flatMap (seenIn (splitext path) (keepOf colv) L R t)).map some) ∧
    (R = 0 ∧ [] ∈ places 1 rows →
      updateFile (asFormatter (reMatch u) f) L R (tokCallbacks (asFormatter (reMatch u) f) colv) d
          (fileLines (textOf (rows.map Row.text))) = .error .indexError) := by
  have hC := Verif.Window.C11_tokens_partial (asFormatter (reMatch u) f) L R colv (fileLines (textOf (rows.map Row.text)))
  have hmem : [] ∈ segments (asFormatter (reMatch u) f) (fileLines (textOf (rows.map Row.text))) ↔ [] ∈ places 1 rows := by
    rw [segments_places u hf h]
    simp
  rw [hmem] at hC
  refine ⟨fun hR => ?_, fun hR => hC.2 hR d⟩
  obtain ⟨d', h1, h2⟩ := hC.1 hR d
  refine ⟨d', h1, fun t => ⟨_, h2 t, ?_⟩⟩
  rw [segments_places u hf h, List.map_flatMap, List.flatMap_map, List.map_flatMap]
  congr 1
  funext xs
  exact view_tokens u hf path _ L R t xs

example : places 1 cooRows = [[⟨['a'], ['D'], ['a'], 1⟩, ⟨['c'], ['N'], ['b'], 2⟩, ⟨['d'], ['V'], ['d'], 3⟩],
      [⟨['b'], ['N'], ['b'], 5⟩, ⟨['a'], ['D'], ['a'], 7⟩]] ∧
    (places 1 cooRows).flatMap (seenIn ['x'] (fun _ => true) 1 1 "b/N".toList) =
      [⟨"c/N/x/2".toList, ["a/D".toList], ["d/V".toList]⟩, ⟨"b/N/x/5".toList, [], ["a/D".toList]⟩] ∧ [] ∉ places 1 cooRows := by
  decide +kernel

/-- **C189 is false** as it stands: with right span 0 a corpus that ends with a boundary line, as all corpora in the shipped format
do, raises `IndexError`. -/
theorem C189_false (u : Tables) {s' : Settings} {f : Formatter} (hf : construct shipped = .ok (s', f)) {rows : List Row}
    (h : ∀ r ∈ rows, r.Fine) (L : Nat) (colv : Option (Vocab Str)) (d : Dict Str (List (Token Verif.Items.Match))) :
    updateFile (asFormatter (reMatch u) f) L 0 (tokCallbacks (asFormatter (reMatch u) f) colv) d
      (fileLines (textOf ((rows ++ [Row.boundary]).map Row.text))) = .error .indexError := by
  refine (C189_partial u hf (rows := rows ++ [.boundary]) (by
    intro r hr
    rcases List.mem_append.1 hr with hr | hr
    · exact h r hr
    · rw [List.mem_singleton.1 hr]; trivial) L 0 colv [] d).2 ⟨rfl, ?_⟩
  have : ∀ (rs : List Row) (n : Nat), [] ∈ (places n (rs ++ [.boundary])).tail := by
    intro rs
    induction rs with
    | nil => intro n; simp [places]
    | cons r rs ih =>
      intro n
      cases r with
      | other line =>
        rw [List.cons_append, places]
        exact ih (n + 1)
      | boundary =>
        rw [List.cons_append, places]
        exact List.mem_of_mem_tail (ih (n + 1))
      | item w p l =>
        rw [List.cons_append, places_item]
        have := ih (n + 1)
        cases hp : places (n + 1) (rs ++ [.boundary]) with
        | nil => exact absurd hp (places_ne _ _)
        | cons s ss => rw [hp] at this; exact this
  exact List.mem_of_mem_tail (this rows 1)

end Verif.Regex
