import Verif.Front.Tokens
import Verif.Items.PropsNodes
import Verif.Matrix.PropsMerge

/-!
# Concordances, token-context positions and token weights: properties
-/

set_option linter.unusedSectionVars false

namespace Verif.Front

open Verif.Py
open Verif.Items (TokenN TypeN Attrs Err toColloc join split)
open Verif.Vocab.Plain (Str)

/-! ## C104: concordances -/

/-- The cells of the line of a token: its string, the collocates on the left, the target, the collocates on the right. -/
structure Cells where
  id : Str
  left : List Str
  target : Str
  right : List Str
  deriving DecidableEq

/-- How a token and its collocates are written in the given format. -/
structure Written (fmt : Str) (t : TokenN) (c : Cells) : Prop where
  id : t.token = .ok c.id
  left : ∃ l, t.lcollocs = some l ∧ List.Forall₂ (fun a s => toColloc a (some fmt) = .ok s) l c.left
  target : toColloc t.attrs (some fmt) = .ok c.target
  right : ∃ l, t.rcollocs = some l ∧ List.Forall₂ (fun a s => toColloc a (some fmt) = .ok s) l c.right

/-- The text of a line. -/
def Cells.text (c : Cells) : Str :=
  c.id ++ '\t' :: (join ' ' c.left ++ '\t' :: (c.target ++ '\t' :: join ' ' c.right))

/-- No cell holds a tab or a newline, and no collocate is empty or holds a blank. -/
structure Clean (c : Cells) : Prop where
  id : '\t' ∉ c.id ∧ '\n' ∉ c.id
  target : '\t' ∉ c.target ∧ '\n' ∉ c.target
  collocs : ∀ s ∈ c.left ++ c.right, s ≠ [] ∧ '\t' ∉ s ∧ '\n' ∉ s ∧ ' ' ∉ s

theorem mapM_of_forall₂ {α β ε : Type} {f : α → Except ε β} {l : List α} {r : List β}
    (h : List.Forall₂ (fun a b => f a = .ok b) l r) : l.mapM f = .ok r := by
  induction h with
  | nil => rfl
  | cons h _ ih => rw [List.mapM_cons, h, ih]; rfl

theorem concordLine_written {fmt : Str} {t : TokenN} {c : Cells} (h : Written fmt t c) :
    concordLine fmt t = .ok (c.text ++ ['\n']) := by
  obtain ⟨l, hl, hl'⟩ := h.left
  obtain ⟨r, hr, hr'⟩ := h.right
  have h1 : side fmt t.lcollocs = .ok (join ' ' c.left) := by
    rw [hl, side, mapM_of_forall₂ hl']; rfl
  have h2 : side fmt t.rcollocs = .ok (join ' ' c.right) := by
    rw [hr, side, mapM_of_forall₂ hr']; rfl
  rw [concordLine, h1, h2, h.id, h.target]
  rfl

theorem concordLoop_written {fmt : Str} {ts : List TokenN} {cs : List Cells} (h : List.Forall₂ (Written fmt) ts cs) :
    concordLoop fmt ts = ((cs.map (fun c => c.text ++ ['\n'])).flatten, none) := by
  induction h with
  | nil => rfl
  | cons h _ ih => rw [concordLoop, concordLine_written h, ih]; rfl

theorem concordLoop_append {fmt : Str} {ts : List TokenN} {cs : List Cells} (h : List.Forall₂ (Written fmt) ts cs)
    (rest : List TokenN) : concordLoop fmt (ts ++ rest) =
      ((cs.map (fun c => c.text ++ ['\n'])).flatten ++ (concordLoop fmt rest).1, (concordLoop fmt rest).2) := by
  induction h with
  | nil => rfl
  | cons h _ ih => rw [List.cons_append, concordLoop, concordLine_written h, ih]; simp

/-- The file has one line per token, in the order of the types and of the tokens of each type: its string, its left
collocates, the target and its right collocates, separated by tabs, with blanks between collocates. -/
theorem C104_lines {nodes : Dict Str TypeN} {fmt : Str} {cs : List Cells}
    (h : List.Forall₂ (Written fmt) (nodes.flatMap (fun p => p.2.tokens)) cs) :
    saveConcordance nodes fmt = ((cs.map (fun c => c.text ++ ['\n'])).flatten, none) := concordLoop_written h

theorem notMem_join {c d : Char} (hcd : c ≠ d) {l : List Str} (h : ∀ s ∈ l, c ∉ s) : c ∉ join d l := by
  induction l with
  | nil => simp [join]
  | cons s ts ih =>
    cases ts with
    | nil => exact h s (by simp)
    | cons t ts =>
      rw [Items.join_cons d s (by simp)]
      simp only [List.mem_append, List.mem_cons, not_or]
      exact ⟨h s (by simp), hcd, ih (fun s hs => h s (by simp [hs]))⟩

theorem join_blank {l : List Str} (h : ∀ s ∈ l, s ≠ []) : join ' ' l = [] ↔ l = [] := by
  match l with
  | [] => simp [join]
  | [s] => simpa [join] using h s
  | s :: t :: ts => simp [join]

/-- The collocates of a cell: nothing for an empty cell. -/
def cellWords (s : Str) : List Str := if s = [] then [] else split ' ' s

theorem cellWords_join {l : List Str} (h : ∀ s ∈ l, s ≠ [] ∧ ' ' ∉ s) : cellWords (join ' ' l) = l := by
  unfold cellWords
  by_cases hl : l = []
  · subst hl; rfl
  · rw [if_neg (fun h0 => hl ((join_blank (fun s hs => (h s hs).1)).1 h0)),
      Items.split_join ' ' l hl (fun s hs => (h s hs).2)]

/-- Splitting at the tabs and blanks gives the cells of a line back. -/
theorem clean_cells {c : Cells} (h : Clean c) :
    ∃ l r, split '\t' c.text = [c.id, l, c.target, r] ∧ cellWords l = c.left ∧ cellWords r = c.right := by
  have hl : ∀ s ∈ c.left, s ≠ [] ∧ '\t' ∉ s ∧ '\n' ∉ s ∧ ' ' ∉ s := fun s hs => h.collocs s (by simp [hs])
  have hr : ∀ s ∈ c.right, s ≠ [] ∧ '\t' ∉ s ∧ '\n' ∉ s ∧ ' ' ∉ s := fun s hs => h.collocs s (by simp [hs])
  refine ⟨join ' ' c.left, join ' ' c.right, ?_, cellWords_join (fun s hs => ⟨(hl s hs).1, (hl s hs).2.2.2⟩),
    cellWords_join (fun s hs => ⟨(hr s hs).1, (hr s hs).2.2.2⟩)⟩
  rw [Cells.text, Items.split_append '\t' _ _ h.id.1,
    Items.split_append '\t' _ _ (notMem_join (by decide) (fun s hs => (hl s hs).2.1)),
    Items.split_append '\t' _ _ h.target.1,
    Items.split_noc '\t' _ (notMem_join (by decide) (fun s hs => (hr s hs).2.1))]

theorem clean_line {c : Cells} (h : Clean c) : '\n' ∉ c.text := by
  have hl := notMem_join (c := '\n') (d := ' ') (by decide) (l := c.left)
    (fun s hs => (h.collocs s (by simp [hs])).2.2.1)
  have hr := notMem_join (c := '\n') (d := ' ') (by decide) (l := c.right)
    (fun s hs => (h.collocs s (by simp [hs])).2.2.1)
  simp only [Cells.text, List.mem_append, List.mem_cons, not_or]
  exact ⟨h.id.2, by decide, hl, by decide, h.target.2, by decide, hr⟩

theorem split_lines (ls : List Str) (h : ∀ l ∈ ls, '\n' ∉ l) :
    split '\n' (ls.map (· ++ ['\n'])).flatten = ls ++ [[]] := by
  induction ls with
  | nil => rfl
  | cons l ls ih =>
    rw [List.map_cons, List.flatten_cons, List.append_assoc, List.singleton_append,
      Items.split_append '\n' _ _ (h l (by simp)), ih (fun l hl => h l (by simp [hl]))]
    rfl

/-- If the cells are clean, the file can be read back: its lines are those of the tokens, and every line gives the
string of the token, its contexts and the target. -/
theorem C104_readable {nodes : Dict Str TypeN} {fmt : Str} {cs : List Cells}
    (h : List.Forall₂ (Written fmt) (nodes.flatMap (fun p => p.2.tokens)) cs) (hc : ∀ c ∈ cs, Clean c) :
    ∃ text ls, saveConcordance nodes fmt = (text, none) ∧ split '\n' text = ls ++ [[]] ∧
      List.Forall₂ (fun line c => ∃ l r, split '\t' line = [c.id, l, c.target, r] ∧ cellWords l = c.left ∧
        cellWords r = c.right) ls cs := by
  refine ⟨_, cs.map Cells.text, C104_lines h, ?_, ?_⟩
  · have := split_lines (cs.map Cells.text) (by
      intro l hl
      obtain ⟨c, hc', rfl⟩ := List.mem_map.1 hl
      exact clean_line (hc c hc'))
    rw [List.map_map] at this
    exact this
  · rw [List.forall₂_map_left_iff, List.forall₂_same]
    exact fun c hc' => clean_cells (hc c hc')

/-- If a token cannot be written, the exception is raised and the file keeps exactly the lines of the tokens before. -/
theorem C104_failure {nodes : Dict Str TypeN} {fmt : Str} {pre post : List TokenN} {t : TokenN} {cs : List Cells}
    {e : Err} (hn : nodes.flatMap (fun p => p.2.tokens) = pre ++ t :: post) (h : List.Forall₂ (Written fmt) pre cs)
    (ht : concordLine fmt t = .error e) :
    saveConcordance nodes fmt = ((cs.map (fun c => c.text ++ ['\n'])).flatten, some e) := by
  rw [saveConcordance, hn, concordLoop_append h, concordLoop, ht]
  simp

theorem mapM_forall₂ {α β : Type} {g : α → Except Err β} : ∀ {l : List α} {r : List β}, l.mapM g = .ok r →
    List.Forall₂ (fun a b => g a = .ok b) l r
  | [], r, h => by
    simp only [List.mapM_nil] at h
    cases h; exact .nil
  | a :: l, r, h => by
    rw [List.mapM_cons] at h
    cases ha : g a with
    | error e => rw [ha] at h; cases h
    | ok b =>
      rw [ha] at h
      cases hl : l.mapM g with
      | error e => rw [hl] at h; cases h
      | ok bs => rw [hl] at h; cases h; exact .cons ha (mapM_forall₂ hl)

theorem side_ok {fmt : Str} {cs : Option (List Attrs)} {s : Str} (h : side fmt cs = .ok s) :
    ∃ l ss, cs = some l ∧ List.Forall₂ (fun a s => toColloc a (some fmt) = .ok s) l ss := by
  cases cs with
  | none => cases h
  | some l =>
    unfold side at h
    cases hm : l.mapM (fun c => toColloc c (some fmt)) with
    | error e => simp only [hm] at h; cases h
    | ok ss => exact ⟨l, ss, rfl, mapM_forall₂ hm⟩

theorem concordLine_ok {fmt : Str} {t : TokenN} {line : Str} (h : concordLine fmt t = .ok line) :
    ∃ c, Written fmt t c := by
  unfold concordLine at h
  cases hl : side fmt t.lcollocs with
  | error e => rw [hl] at h; cases h
  | ok l =>
    rw [hl] at h
    cases hr : side fmt t.rcollocs with
    | error e => rw [hr] at h; cases h
    | ok r =>
      rw [hr] at h
      cases hs : t.token with
      | error e => rw [hs] at h; cases h
      | ok s =>
        rw [hs] at h
        cases hc : toColloc t.attrs (some fmt) with
        | error e => rw [hc] at h; cases h
        | ok c =>
          obtain ⟨ll, ls, e1, e2⟩ := side_ok hl
          obtain ⟨rl, rs, e3, e4⟩ := side_ok hr
          exact ⟨⟨s, ls, c, rs⟩, hs, ⟨ll, e1, e2⟩, hc, ⟨rl, e3, e4⟩⟩

/-- A token that cannot be written, for example one without contexts, always ends the writing. -/
theorem C104_unwritable {nodes : Dict Str TypeN} {fmt : Str} {pre post : List TokenN} {t : TokenN} {cs : List Cells}
    (hn : nodes.flatMap (fun p => p.2.tokens) = pre ++ t :: post) (h : List.Forall₂ (Written fmt) pre cs)
    (ht : ¬ ∃ c, Written fmt t c) :
    ∃ e, saveConcordance nodes fmt = ((cs.map (fun c => c.text ++ ['\n'])).flatten, some e) := by
  cases hl : concordLine fmt t with
  | ok line => exact absurd (concordLine_ok hl) ht
  | error e => exact ⟨e, C104_failure hn h hl⟩

example : ¬ ∃ c, Written "word".toList ⟨[("word".toList, some "appels".toList)], none, none⟩ c := by
  rintro ⟨c, _, ⟨l, h, _⟩, _⟩
  cases h

/-- With blanks inside collocates the contexts cannot be told apart. -/
theorem C104_blanks : ∃ c d : Cells, c ≠ d ∧ c.text = d.text :=
  ⟨⟨"t".toList, ["in fact".toList], "x".toList, []⟩, ⟨"t".toList, ["in".toList, "fact".toList], "x".toList, []⟩,
    by decide +kernel, by decide +kernel⟩

/-- A token with a context, as the handler makes it. -/
def sampleToken : TokenN :=
  ⟨[("word".toList, some "appels".toList), ("lemma".toList, some "appel".toList), ("pos".toList, some "noun".toList),
    ("fid".toList, some "f1".toList), ("lid".toList, some "3".toList),
    ("format".toList, some "lemma/pos/fid/lid".toList)],
   some [[("word".toList, some "de".toList)], [("word".toList, some "rode".toList)]],
   some [[("word".toList, some "vallen".toList)]]⟩

example : Written "word".toList sampleToken
      ⟨"appel/noun/f1/3".toList, ["de".toList, "rode".toList], "appels".toList, ["vallen".toList]⟩ ∧
    Clean ⟨"appel/noun/f1/3".toList, ["de".toList, "rode".toList], "appels".toList, ["vallen".toList]⟩ := by
  refine ⟨⟨by decide +kernel, ⟨_, rfl, ?_⟩, by decide +kernel, ⟨_, rfl, ?_⟩⟩, ⟨by decide, by decide, by decide⟩⟩
  · exact .cons (by decide +kernel) (.cons (by decide +kernel) .nil)
  · exact .cons (by decide +kernel) .nil

/-! ## C105: positions of collocates -/

/-- The collocate `c` stands at the signed distance `p` from the token, within the spans, and passes the vocabulary. -/
def Within (lspan rspan : Nat) (fmt : Str) (vocab : List Str) (t : TokenN) (c : Str) (p : Int) : Prop :=
  (vocab = [] ∨ c ∈ vocab) ∧
  ((∃ (l : List Attrs) (a : Attrs) (i : Nat), t.lcollocs = some l ∧ i < lspan ∧ l.reverse[i]? = some a ∧
      toColloc a (some fmt) = .ok c ∧ p = -((i : Int) + 1)) ∨
   (∃ (l : List Attrs) (a : Attrs) (i : Nat), t.rcollocs = some l ∧ i < rspan ∧ l[i]? = some a ∧
      toColloc a (some fmt) = .ok c ∧ p = (i : Int) + 1))

theorem at2_write (d : Dict Str (Dict Str Int)) (w : Str × Str × Int) (s c : Str) :
    Matrix.at2 (write d w) s c = if w.1 = s ∧ w.2.1 = c then some w.2.2 else Matrix.at2 d s c :=
  Matrix.at2_set d w.1 w.2.1 w.2.2 s c

/-- The last write decides. -/
theorem at2_writes (ws : List (Str × Str × Int)) (s c : Str) (p : Int) :
    Matrix.at2 (ws.foldl write []) s c = some p ↔
      ∃ pre post, ws = pre ++ (s, c, p) :: post ∧ ∀ w ∈ post, ¬ (w.1 = s ∧ w.2.1 = c) := by
  induction ws using List.reverseRecOn with
  | nil => simp [Matrix.at2]
  | append_singleton ws w ih =>
    rw [List.foldl_append, List.foldl_cons, List.foldl_nil, at2_write]
    by_cases h : w.1 = s ∧ w.2.1 = c
    · rw [if_pos h]
      constructor
      · intro hp
        refine ⟨ws, [], ?_, by simp⟩
        obtain ⟨w1, w2, w3⟩ := w
        simp only at h hp
        rw [h.1, h.2, Option.some.inj hp]
      · rintro ⟨pre, post, he, hn⟩
        rcases List.eq_nil_or_concat post with rfl | ⟨post', x, rfl⟩
        · have := (List.append_inj' he rfl).2
          simp only [List.cons.injEq, and_true] at this
          rw [this]
        · rw [List.concat_eq_append] at he hn
          rw [← List.cons_append, ← List.append_assoc] at he
          have := (List.append_inj' he rfl).2
          simp only [List.cons.injEq, and_true] at this
          exact absurd (this ▸ h) (hn x (by simp))
    · rw [if_neg h, ih]
      constructor
      · rintro ⟨pre, post, rfl, hn⟩
        refine ⟨pre, post ++ [w], by simp, ?_⟩
        intro x hx
        rcases List.mem_append.1 hx with hx | hx
        · exact hn x hx
        · rw [List.mem_singleton.1 hx]; exact h
      · rintro ⟨pre, post, he, hn⟩
        rcases List.eq_nil_or_concat post with rfl | ⟨post', x, rfl⟩
        · have := (List.append_inj' he rfl).2
          simp only [List.cons.injEq, and_true] at this
          rw [this] at h
          exact absurd ⟨rfl, rfl⟩ h
        · rw [List.concat_eq_append] at he hn
          rw [← List.cons_append, ← List.append_assoc] at he
          have := (List.append_inj' he rfl).1
          exact ⟨pre, post', this, fun y hy => hn y (by simp [hy])⟩

theorem at2_writes_some {ws : List (Str × Str × Int)} {s c : Str} {p : Int} (h : (s, c, p) ∈ ws) :
    Matrix.at2 (ws.foldl write []) s c ≠ none := by
  induction ws using List.reverseRecOn with
  | nil => simp at h
  | append_singleton ws w ih =>
    rw [List.foldl_append, List.foldl_cons, List.foldl_nil, at2_write]
    rcases List.mem_append.1 h with h | h
    · split_ifs
      · simp
      · exact ih h
    · rw [← List.mem_singleton.1 h]; simp

theorem forall₂_left {α β : Type} {R : α → β → Prop} {l : List α} {r : List β} (h : List.Forall₂ R l r) {k : Nat}
    {a : α} (hk : l[k]? = some a) : ∃ b, r[k]? = some b ∧ R a b := by
  induction h generalizing k with
  | nil => simp at hk
  | cons h _ ih =>
    cases k with
    | zero => simp only [List.getElem?_cons_zero, Option.some.injEq] at hk ⊢; subst hk; exact ⟨_, rfl, h⟩
    | succ k => simp only [List.getElem?_cons_succ] at hk ⊢; exact ih hk

theorem forall₂_right {α β : Type} {R : α → β → Prop} {l : List α} {r : List β} (h : List.Forall₂ R l r) {k : Nat}
    {b : β} (hk : r[k]? = some b) : ∃ a, l[k]? = some a ∧ R a b := by
  induction h generalizing k with
  | nil => simp at hk
  | cons h _ ih =>
    cases k with
    | zero => simp only [List.getElem?_cons_zero, Option.some.injEq] at hk ⊢; subst hk; exact ⟨_, rfl, h⟩
    | succ k => simp only [List.getElem?_cons_succ] at hk ⊢; exact ih hk

theorem sideWrites_at {fmt : Str} {span : Nat} {sign : Int} {near : List Attrs} {ws : List (Str × Int)}
    (h : sideWrites fmt span sign near = .ok ws) (k : Nat) (c : Str) (p : Int) :
    ws[k]? = some (c, p) ↔
      ∃ a, k < span ∧ near[k]? = some a ∧ toColloc a (some fmt) = .ok c ∧ p = sign * ((k : Int) + 1) := by
  have hf := Items.mapM_forall₂.1 h
  constructor
  · intro hk
    obtain ⟨q, hq, hr⟩ := forall₂_right hf hk
    rw [List.getElem?_zipIdx, Option.map_eq_some_iff] at hq
    obtain ⟨a, ha, rfl⟩ := hq
    obtain ⟨s, hs, hs'⟩ := Items.bind_ok hr
    have he := Except.ok.inj hs'
    simp only [Nat.zero_add, Prod.mk.injEq] at he hs
    have hlt : k < span := by
      have := (List.getElem?_eq_some_iff.1 ha).1
      rw [List.length_take] at this
      omega
    rw [List.getElem?_take_of_lt hlt] at ha
    exact ⟨a, hlt, ha, he.1 ▸ hs, he.2.symm⟩
  · rintro ⟨a, hlt, ha, hc, rfl⟩
    have hz : ((near.take span).zipIdx)[k]? = some (a, k) := by
      rw [List.getElem?_zipIdx, List.getElem?_take_of_lt hlt, ha]; simp
    obtain ⟨b, hb, hr⟩ := forall₂_left hf hz
    obtain ⟨s, hs, hs'⟩ := Items.bind_ok hr
    have he := Except.ok.inj hs'
    simp only at hs
    rw [hc] at hs
    rw [hb, ← he, Except.ok.inj hs]

theorem tokenWrites_inv {lspan rspan : Nat} {fmt : Str} {vocab : List Str} {t : TokenN}
    {ws : List (Str × Str × Int)} (h : tokenWrites lspan rspan fmt vocab t = .ok ws) :
    ∃ s lc rc l r, t.token = .ok s ∧ t.lcollocs = some lc ∧ t.rcollocs = some rc ∧
      sideWrites fmt lspan (-1) lc.reverse = .ok l ∧ sideWrites fmt rspan 1 rc = .ok r ∧
      ws = ((l ++ r).filter (fun e => vocab.isEmpty || decide (e.1 ∈ vocab))).map (fun e => (s, e.1, e.2)) := by
  obtain ⟨s, hs, h⟩ := Items.bind_ok h
  obtain ⟨lc, hlc, h⟩ := Items.bind_ok h
  obtain ⟨l, hl, h⟩ := Items.bind_ok h
  obtain ⟨rc, hrc, h⟩ := Items.bind_ok h
  obtain ⟨r, hr, h⟩ := Items.bind_ok h
  refine ⟨s, lc, rc, l, r, hs, ?_, ?_, hl, hr, (Except.ok.inj h).symm⟩
  · cases hx : t.lcollocs with
    | none => rw [hx] at hlc; exact (nomatch hlc)
    | some x => rw [hx] at hlc; rw [Except.ok.inj hlc]
  · cases hx : t.rcollocs with
    | none => rw [hx] at hrc; exact (nomatch hrc)
    | some x => rw [hx] at hrc; rw [Except.ok.inj hrc]

theorem tokenWrites_mem {lspan rspan : Nat} {fmt : Str} {vocab : List Str} {t : TokenN}
    {ws : List (Str × Str × Int)} (h : tokenWrites lspan rspan fmt vocab t = .ok ws) (s c : Str) (p : Int) :
    (s, c, p) ∈ ws ↔ t.token = .ok s ∧ Within lspan rspan fmt vocab t c p := by
  obtain ⟨s', lc, rc, l, r, hs, hlc, hrc, hl, hr, rfl⟩ := tokenWrites_inv h
  have hv : ∀ c : Str, (vocab.isEmpty || decide (c ∈ vocab)) = true ↔ (vocab = [] ∨ c ∈ vocab) := by
    intro c; simp
  simp only [List.mem_map, List.mem_filter, List.mem_append, Prod.mk.injEq, Prod.exists, hv]
  constructor
  · rintro ⟨c', p', ⟨hm, hvoc⟩, rfl, rfl, rfl⟩
    refine ⟨hs, hvoc, ?_⟩
    rcases hm with hm | hm
    · obtain ⟨k, hk⟩ := List.mem_iff_getElem?.1 hm
      obtain ⟨a, h1, h2, h3, h4⟩ := (sideWrites_at hl k _ _).1 hk
      exact Or.inl ⟨lc, a, k, hlc, h1, h2, h3, by rw [h4]; ring⟩
    · obtain ⟨k, hk⟩ := List.mem_iff_getElem?.1 hm
      obtain ⟨a, h1, h2, h3, h4⟩ := (sideWrites_at hr k _ _).1 hk
      exact Or.inr ⟨rc, a, k, hrc, h1, h2, h3, by rw [h4]; ring⟩
  · rintro ⟨hs', hvoc, hw⟩
    rw [hs] at hs'
    refine ⟨c, p, ⟨?_, hvoc⟩, Except.ok.inj hs', rfl, rfl⟩
    rcases hw with ⟨l', a, k, h0, h1, h2, h3, h4⟩ | ⟨l', a, k, h0, h1, h2, h3, h4⟩
    · rw [hlc] at h0; obtain rfl := Option.some.inj h0
      exact Or.inl (List.mem_iff_getElem?.2 ⟨k, (sideWrites_at hl k _ _).2 ⟨a, h1, h2, h3, by rw [h4]; ring⟩⟩)
    · rw [hrc] at h0; obtain rfl := Option.some.inj h0
      exact Or.inr (List.mem_iff_getElem?.2 ⟨k, (sideWrites_at hr k _ _).2 ⟨a, h1, h2, h3, by rw [h4]; ring⟩⟩)

theorem readTokenColloc_inv {lspan rspan : Nat} {fmt : Str} {vocab : List Str} {n : TypeN}
    {d : Dict Str (Dict Str Int)} (h : readTokenColloc lspan rspan fmt vocab n = .ok d) :
    ∃ ws, List.Forall₂ (fun t w => tokenWrites lspan rspan fmt vocab t = .ok w) n.tokens ws ∧
      d = ws.flatten.foldl write [] := by
  obtain ⟨ws, hws, h⟩ := Items.bind_ok h
  exact ⟨ws, Items.mapM_forall₂.1 hws, (Except.ok.inj h).symm⟩

/-- Every recorded position is one where the collocate stands within the spans of a token with that string; and every
collocate within the spans of a token that passes the vocabulary is recorded.  Missing from the full claim: it is not
always the nearest position, see `C105_repeated` and `C105_false`. -/
theorem C105_positions_partial {lspan rspan : Nat} {fmt : Str} {vocab : List Str} {n : TypeN}
    {d : Dict Str (Dict Str Int)} (h : readTokenColloc lspan rspan fmt vocab n = .ok d) (s c : Str) :
    (∀ p, Matrix.at2 d s c = some p → ∃ t ∈ n.tokens, t.token = .ok s ∧ Within lspan rspan fmt vocab t c p) ∧
    ((∃ t ∈ n.tokens, t.token = .ok s ∧ ∃ p, Within lspan rspan fmt vocab t c p) → Matrix.at2 d s c ≠ none) := by
  obtain ⟨ws, hf, rfl⟩ := readTokenColloc_inv h
  constructor
  · intro p hp
    obtain ⟨pre, post, he, _⟩ := (at2_writes _ _ _ _).1 hp
    have hm : (s, c, p) ∈ ws.flatten := by rw [he]; simp
    obtain ⟨w, hw, hm⟩ := List.mem_flatten.1 hm
    obtain ⟨k, hk⟩ := List.mem_iff_getElem?.1 hw
    obtain ⟨t, ht, hr⟩ := forall₂_right hf hk
    exact ⟨t, List.mem_iff_getElem?.2 ⟨k, ht⟩, (tokenWrites_mem hr s c p).1 hm⟩
  · rintro ⟨t, ht, hs, p, hp⟩
    obtain ⟨k, hk⟩ := List.mem_iff_getElem?.1 ht
    obtain ⟨w, hw, hr⟩ := forall₂_left hf hk
    exact at2_writes_some (p := p) (List.mem_flatten.2 ⟨w, List.mem_iff_getElem?.2 ⟨k, hw⟩,
      (tokenWrites_mem hr s c p).2 ⟨hs, hp⟩⟩)

/-- The order in which positions are written: outwards on the left, then outwards on the right. -/
def Before (p q : Int) : Prop := (q < p ∧ p < 0) ∨ (p < 0 ∧ 0 < q) ∨ (0 < p ∧ p < q)

theorem tokenWrites_order {lspan rspan : Nat} {fmt : Str} {vocab : List Str} {t : TokenN}
    {ws : List (Str × Str × Int)} (h : tokenWrites lspan rspan fmt vocab t = .ok ws) :
    ws.Pairwise (fun v w => Before v.2.2 w.2.2) := by
  obtain ⟨s', lc, rc, l, r, hs, hlc, hrc, hl, hr, rfl⟩ := tokenWrites_inv h
  rw [List.pairwise_map]
  refine List.Pairwise.filter _ (List.pairwise_append.2 ⟨?_, ?_, ?_⟩)
  · rw [List.pairwise_iff_getElem]
    intro i j hi hj hij
    obtain ⟨_, _, _, _, h1⟩ := (sideWrites_at hl i l[i].1 l[i].2).1 (List.getElem?_eq_getElem hi)
    obtain ⟨_, _, _, _, h2⟩ := (sideWrites_at hl j l[j].1 l[j].2).1 (List.getElem?_eq_getElem hj)
    left
    show l[j].2 < l[i].2 ∧ l[i].2 < 0
    rw [h1, h2]
    constructor <;> omega
  · rw [List.pairwise_iff_getElem]
    intro i j hi hj hij
    obtain ⟨_, _, _, _, h1⟩ := (sideWrites_at hr i r[i].1 r[i].2).1 (List.getElem?_eq_getElem hi)
    obtain ⟨_, _, _, _, h2⟩ := (sideWrites_at hr j r[j].1 r[j].2).1 (List.getElem?_eq_getElem hj)
    right; right
    show 0 < r[i].2 ∧ r[i].2 < r[j].2
    rw [h1, h2]
    constructor <;> omega
  · intro a ha b hb
    obtain ⟨i, hi⟩ := List.mem_iff_getElem?.1 ha
    obtain ⟨j, hj⟩ := List.mem_iff_getElem?.1 hb
    obtain ⟨_, _, _, _, h1⟩ := (sideWrites_at hl i a.1 a.2).1 hi
    obtain ⟨_, _, _, _, h2⟩ := (sideWrites_at hr j b.1 b.2).1 hj
    right; left
    show a.2 < 0 ∧ 0 < b.2
    rw [h1, h2]
    constructor <;> omega

theorem flatten_split {α : Type} {ls : List (List α)} {k : Nat} {w : List α} (h : ls[k]? = some w) :
    ls.flatten = (ls.take k).flatten ++ w ++ (ls.drop (k + 1)).flatten := by
  induction ls generalizing k with
  | nil => simp at h
  | cons x xs ih =>
    cases k with
    | zero => simp only [List.getElem?_cons_zero, Option.some.injEq] at h; subst h; simp
    | succ k =>
      simp only [List.getElem?_cons_succ] at h
      simp [ih h]

/-- If the tokens have different strings, the position recorded for a collocate that occurs more than once is the
farthest one on the right or, if it does not occur on the right, the farthest one on the left. -/
theorem C105_repeated {lspan rspan : Nat} {fmt : Str} {vocab : List Str} {n : TypeN}
    {d : Dict Str (Dict Str Int)} (h : readTokenColloc lspan rspan fmt vocab n = .ok d)
    (hd : ∀ i j : Nat, ∀ t u s, n.tokens[i]? = some t → n.tokens[j]? = some u → t.token = .ok s → u.token = .ok s → i = j)
    {t : TokenN} (ht : t ∈ n.tokens) {s c : Str} (hs : t.token = .ok s) {p : Int} (hp : Matrix.at2 d s c = some p) :
    Within lspan rspan fmt vocab t c p ∧
    ∀ q, Within lspan rspan fmt vocab t c q → q = p ∨ Before q p := by
  obtain ⟨ws, hf, rfl⟩ := readTokenColloc_inv h
  obtain ⟨k, hk⟩ := List.mem_iff_getElem?.1 ht
  obtain ⟨w, hw, hr⟩ := forall₂_left hf hk
  obtain ⟨pre, post, he, hn⟩ := (at2_writes _ _ _ _).1 hp
  have hown : ∀ q, (s, c, q) ∈ ws.flatten → (s, c, q) ∈ w := by
    intro q hq
    obtain ⟨w', hw', hm⟩ := List.mem_flatten.1 hq
    obtain ⟨k', hk'⟩ := List.mem_iff_getElem?.1 hw'
    obtain ⟨u, hu, hru⟩ := forall₂_right hf hk'
    have := hd k k' t u s hk hu hs ((tokenWrites_mem hru s c q).1 hm).1
    subst this
    rw [hw] at hk'
    rw [Option.some.inj hk']; exact hm
  have hpw : (s, c, p) ∈ w := hown p (by rw [he]; simp)
  refine ⟨((tokenWrites_mem hr s c p).1 hpw).2, fun q hq => ?_⟩
  have hqw : (s, c, q) ∈ w := (tokenWrites_mem hr s c q).2 ⟨hs, hq⟩
  by_cases hpq : q = p
  · exact Or.inl hpq
  right
  have hord := tokenWrites_order hr
  obtain ⟨i, hi⟩ := List.mem_iff_getElem?.1 hqw
  obtain ⟨j, hj⟩ := List.mem_iff_getElem?.1 hpw
  obtain ⟨hil, hi'⟩ := List.getElem?_eq_some_iff.1 hi
  obtain ⟨hjl, hj'⟩ := List.getElem?_eq_some_iff.1 hj
  rcases lt_trichotomy i j with hij | hij | hij
  · have := List.pairwise_iff_getElem.1 hord i j hil hjl hij
    rw [hi', hj'] at this
    exact this
  · subst hij
    rw [hi'] at hj'
    simp only [Prod.mk.injEq, true_and] at hj'
    exact absurd hj' hpq
  · exfalso
    -- a later write of the same entry would decide
    have hB := List.pairwise_iff_getElem.1 hord j i hjl hil hij
    rw [hi', hj'] at hB
    have hsp : w = w.take (j + 1) ++ w.drop (j + 1) := (List.take_append_drop _ _).symm
    have hqd : (s, c, q) ∈ w.drop (j + 1) := by
      rw [List.mem_iff_getElem?]
      exact ⟨i - (j + 1), by rw [List.getElem?_drop, show j + 1 + (i - (j + 1)) = i by omega]; exact hi⟩
    have hfl := flatten_split hw
    -- the last write for (s, c) is (s, c, p); so q cannot come after every p
    have hlast : ∀ A B : List (Str × Str × Int), ws.flatten = A ++ B → (s, c, q) ∈ B → (s, c, p) ∈ B := by
      intro A B hAB hq'
      by_contra hnp
      have hpA : pre.length < A.length := by
        by_contra hlen
        have : (s, c, p) ∈ B := by
          rw [List.mem_iff_getElem?]
          refine ⟨pre.length - A.length, ?_⟩
          have h1 : ws.flatten[pre.length]? = some (s, c, p) := by rw [he]; simp
          rw [hAB, List.getElem?_append_right (by omega)] at h1
          exact h1
        exact hnp this
      obtain ⟨m, hm⟩ := List.mem_iff_getElem?.1 hq'
      have h2 : ws.flatten[A.length + m]? = some (s, c, q) := by
        rw [hAB, List.getElem?_append_right (by omega)]; simpa using hm
      rw [he, List.getElem?_append_right (by omega)] at h2
      obtain ⟨x, hx⟩ : ∃ x, A.length + m - pre.length = x + 1 := ⟨A.length + m - pre.length - 1, by omega⟩
      rw [hx, List.getElem?_cons_succ] at h2
      exact hn _ (List.mem_iff_getElem?.2 ⟨x, h2⟩) ⟨rfl, rfl⟩
    have hpB := hlast ((ws.take k).flatten ++ w.take (j + 1)) (w.drop (j + 1) ++ (ws.drop (k + 1)).flatten)
      (by rw [hfl, List.append_assoc, List.append_assoc, ← List.append_assoc (w.take (j + 1)), ← hsp])
      (List.mem_append_left _ hqd)
    rcases List.mem_append.1 hpB with hpB | hpB
    · obtain ⟨m, hm⟩ := List.mem_iff_getElem?.1 hpB
      rw [List.getElem?_drop] at hm
      obtain ⟨hml, hm'⟩ := List.getElem?_eq_some_iff.1 hm
      have := List.pairwise_iff_getElem.1 hord j (j + 1 + m) hjl hml (by omega)
      rw [hj', hm'] at this
      rcases this with ⟨h1, _⟩ | ⟨h1, h2⟩ | ⟨_, h1⟩ <;> simp only at * <;> omega
    · obtain ⟨w', hw', hm⟩ := List.mem_flatten.1 hpB
      obtain ⟨k', hk'⟩ := List.mem_iff_getElem?.1 hw'
      rw [List.getElem?_drop] at hk'
      obtain ⟨u, hu, hru⟩ := forall₂_right hf hk'
      have := hd k (k + 1 + k') t u s hk hu hs ((tokenWrites_mem hru s c p).1 hm).1
      omega

/-- A token with the same collocate at the distances 1 and 2 on the left. -/
def twiceToken : TokenN :=
  ⟨[("word".toList, some "x".toList), ("fid".toList, some "f".toList), ("lid".toList, some "9".toList),
    ("format".toList, some "word/fid/lid".toList)],
   some [[("word".toList, some "a".toList)], [("word".toList, some "a".toList)]], some []⟩

/-- So the claim that the nearest position is recorded is false. -/
theorem C105_false : ¬ ∀ (n : TypeN) (d : Dict Str (Dict Str Int)) (t : TokenN) (s c : Str) (p q : Int),
    readTokenColloc 5 5 "word".toList [] n = .ok d → n.tokens = [t] → t.token = .ok s → Matrix.at2 d s c = some p →
    Within 5 5 "word".toList [] t c q → |p| ≤ |q| := by
  intro h
  have := h ⟨[], [twiceToken]⟩ [("x/f/9".toList, [("a".toList, -2)])] twiceToken "x/f/9".toList "a".toList (-2) (-1)
    (by decide +kernel) rfl (by decide +kernel) (by decide +kernel)
    ⟨Or.inl rfl, Or.inl ⟨_, [("word".toList, some "a".toList)], 0, rfl, by decide, rfl, by decide +kernel, rfl⟩⟩
  simp at this

/-- Two tokens with different strings: the hypotheses of `C105_repeated` are met. -/
example : readTokenColloc 5 5 "word".toList [] ⟨[], [sampleToken, twiceToken]⟩ =
    .ok [("appel/noun/f1/3".toList, [("rode".toList, -1), ("de".toList, -2), ("vallen".toList, 1)]),
      ("x/f/9".toList, [("a".toList, -2)])] := by decide +kernel

end Verif.Front
