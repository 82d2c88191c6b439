import Verif.Dep.Pattern
import Mathlib.Data.List.Infix
import Mathlib.Data.List.TakeWhile
import Mathlib.Tactic.Tauto

set_option linter.unusedSectionVars false

/-!
# C65: `parse_pattern` reads back the tree that the notation describes
-/

namespace Verif.Dep
open Verif.Py Verif.Vocab.Plain

/-! ## Specification -/

/-- Direction of an edge as seen from the node that is read first. -/
inductive Dir where
  | left | right
  deriving DecidableEq, Repr

def Dir.arrow : Dir → Str
  | .left => ['<', '-']
  | .right => ['-', '>']

/-- The edge between an earlier node `u` and a later node `v`. -/
def Dir.edge (d : Dir) (u v : Nat) : Nat × Nat :=
  match d with
  | .left => (v, u)
  | .right => (u, v)

/-- What hangs from a node: a first tree, given by direction, relation and text of its top node and by what hangs from
that, and the other trees. -/
inductive Forest where
  | nil
  | cons (d : Dir) (rel text : Str) (kids rest : Forest)

namespace Forest

def texts : Forest → List Str
  | nil => []
  | cons _ _ t kids rest => t :: (kids.texts ++ rest.texts)

/-- The edges, nodes being numbered in reading order from `n` on and `u` being the node from which the forest hangs. -/
def edges (u n : Nat) : Forest → List ((Nat × Nat) × Str)
  | nil => []
  | cons d rel _ kids rest => (d.edge u n, rel) :: (kids.edges n (n + 1) ++ rest.edges u (n + 1 + kids.texts.length))

end Forest

/-- Texts numbered from `n` on. -/
def numbered (n : Nat) (l : List Str) : List (Nat × Str) := l.zipIdx.map (fun e => (n + e.2, e.1))

/-- White space. -/
def Blank (s : Str) : Prop := ∀ c ∈ s, isSpace c = true

/-- A text that begins and ends with something other than white space. -/
def Trimmed (s : Str) : Prop := (∃ c, s.head? = some c ∧ isSpace c = false) ∧ ∃ c, s.getLast? = some c ∧ isSpace c = false

/-- `s` is the relation, white space beginning with a blank, and the text of a node, without arrows (also not together with
a following dash) and unclosed brackets; relations have no blank and do not begin with a bracket. -/
structure Label (rel text s : Str) : Prop where
  write : ∃ sp, Blank sp ∧ s = rel ++ ' ' :: (sp ++ text)
  rel : Trimmed rel ∧ ' ' ∉ rel ∧ rel.head? ≠ some '['
  text : Trimmed text
  arrows : ¬ ['<', '-'] <:+: s ++ ['-'] ∧ ¬ ['-', '>'] <:+: s
  closed : '[' ∈ s → ']' ∈ s

/-- The notation.  `Notation C false d F s` says that `s` can be written after the arrow of direction `d` to describe the
forest `F`: a label; a label, an arrow and more; or a list in brackets.  `Notation C true d F s` says that `s` can be written between
the brackets: items with commas between them.  `C` is a condition on items. -/
inductive Notation (C : Str → Prop) : Bool → Dir → Forest → Str → Prop
  | leaf {d rel text s} : Label rel text s → Notation C false d (.cons d rel text .nil .nil) s
  | chain {d d' rel text kids s p q s'} : Label rel text s → Blank p → Blank q → Notation C false d' kids s' →
      (s'.head? = some '[' → q = []) →
      Notation C false d (.cons d rel text kids .nil) (s ++ p ++ d'.arrow ++ q ++ s')
  | list {d F s} : Notation C true d F s → Notation C false d F ('[' :: (s ++ [']']))
  | item {d rel text kids s p q} : Notation C false d (.cons d rel text kids .nil) s → C s → Blank p → Blank q →
      Notation C true d (.cons d rel text kids .nil) (p ++ s ++ q)
  | items {d rel text kids rest s p q s'} : Notation C false d (.cons d rel text kids .nil) s → C s → Blank p → Blank q →
      Notation C true d rest s' → Notation C true d (.cons d rel text kids rest) (p ++ s ++ q ++ ',' :: s')

/-- The claim, for the notation with the condition `C` on items. -/
def ReadsBack (C : Str → Prop) : Prop :=
  ∀ target d F s p q r, Notation C false d F s → Blank p → Blank q → Blank r →
    parsePattern target (p ++ d.arrow ++ q ++ s ++ r) = .ok (numbered 1 (strip target :: F.texts), F.edges 1 2)

/-! ## Proofs -/

section strip

theorem dropWhile_blank {p s : Str} (hp : Blank p) : (p ++ s).dropWhile isSpace = s.dropWhile isSpace := by
  induction p with
  | nil => rfl
  | cons c p ih =>
    rw [List.cons_append, List.dropWhile_cons_of_pos (hp c (by simp))]
    exact ih (fun x hx => hp x (by simp [hx]))

theorem dropWhile_head {s : Str} {c : Char} (h : s.head? = some c) (hc : isSpace c = false) : s.dropWhile isSpace = s := by
  cases s with
  | nil => cases h
  | cons a s =>
    simp only [List.head?_cons, Option.some.injEq] at h
    subst h
    rw [List.dropWhile_cons_of_neg (by simp [hc])]

theorem strip_pad {p s q : Str} (hp : Blank p) (hq : Blank q) (hs : Trimmed s) : strip (p ++ s ++ q) = s := by
  obtain ⟨⟨c, h1, h2⟩, ⟨e, h3, h4⟩⟩ := hs
  have hh : (s ++ q).head? = some c := by
    cases s with
    | nil => cases h1
    | cons a s => exact h1
  unfold strip
  rw [List.append_assoc, dropWhile_blank hp, dropWhile_head hh h2, List.reverse_append]
  rw [dropWhile_blank (fun x hx => hq x (List.mem_reverse.1 hx)), dropWhile_head (c := e) (by rw [List.head?_reverse]; exact h3) h4,
    List.reverse_reverse]

theorem strip_trimmed {s : Str} (hs : Trimmed s) : strip s = s := by
  have := strip_pad (p := []) (q := []) (s := s) (fun _ h => (nomatch h)) (fun _ h => (nomatch h)) hs
  simpa using this

theorem Trimmed.ne_nil {s : Str} (hs : Trimmed s) : s ≠ [] := by
  rintro rfl
  obtain ⟨⟨c, h, _⟩, _⟩ := hs
  cases h

theorem Trimmed.append {a b c : Str} (ha : Trimmed a) (hc : Trimmed c) : Trimmed (a ++ b ++ c) := by
  refine ⟨?_, ?_⟩
  · obtain ⟨x, h, hx⟩ := ha.1
    refine ⟨x, ?_, hx⟩
    rw [List.append_assoc]
    cases a with
    | nil => cases h
    | cons y a => exact h
  · obtain ⟨x, h, hx⟩ := hc.2
    refine ⟨x, ?_, hx⟩
    rw [List.getLast?_append, h]
    rfl

end strip

section arrows

/-- Recursive form of the condition on arrows. -/
def arrowFree : Str → Prop
  | [] => True
  | [c] => c ≠ '<'
  | c :: d :: r => isArrow [c, d] = false ∧ arrowFree (d :: r)

theorem arrowFree_of {s : Str} (h1 : ¬ ['<', '-'] <:+: s ++ ['-']) (h2 : ¬ ['-', '>'] <:+: s) : arrowFree s := by
  induction s with
  | nil => trivial
  | cons c s ih =>
    cases s with
    | nil =>
      rintro rfl
      exact h1 (List.infix_refl _)
    | cons d r =>
      refine ⟨?_, ih ?_ ?_⟩
      · unfold isArrow
        simp only [List.take_succ_cons, List.take_zero, Bool.or_eq_false_iff, beq_eq_false_iff_ne, ne_eq]
        refine ⟨fun e => h1 ?_, fun e => h2 ?_⟩
        · injection e with e1 e2
          injection e2 with e2 _
          subst e1 e2
          exact ⟨[], r ++ ['-'], rfl⟩
        · injection e with e1 e2
          injection e2 with e2 _
          subst e1 e2
          exact ⟨[], r, rfl⟩
      · exact fun h => h1 (h.trans ⟨[c], [], by simp⟩)
      · exact fun h => h2 (h.trans ⟨[c], [], by simp⟩)

theorem isArrow_cons (c d : Char) (l : Str) : isArrow (c :: d :: l) = isArrow [c, d] := rfl

theorem isArrow_space {c d : Char} (h : isSpace c = true ∨ isSpace d = true) : isArrow [c, d] = false := by
  unfold isArrow
  simp only [List.take_succ_cons, List.take_zero, Bool.or_eq_false_iff, beq_eq_false_iff_ne, ne_eq]
  have key : ∀ a b : Char, isSpace a = false → isSpace b = false → [c, d] ≠ [a, b] := by
    intro a b ha hb e
    injection e with e1 e2
    injection e2 with e2 _
    subst e1 e2
    rcases h with h | h
    · rw [h] at ha; cases ha
    · rw [h] at hb; cases hb
  exact ⟨key _ _ (by decide) (by decide), key _ _ (by decide) (by decide)⟩

theorem arrowFree_left {p s : Str} (hp : Blank p) (hs : arrowFree s) : arrowFree (p ++ s) := by
  induction p with
  | nil => exact hs
  | cons c p ih =>
    have hc := hp c (by simp)
    have ih := ih (fun x hx => hp x (by simp [hx]))
    rw [List.cons_append]
    cases hps : p ++ s with
    | nil =>
      rintro rfl
      exact absurd hc (by decide)
    | cons d r =>
      rw [hps] at ih
      exact ⟨isArrow_space (.inl hc), ih⟩

theorem arrowFree_right {s p : Str} (hp : Blank p) (hs : arrowFree s) : arrowFree (s ++ p) := by
  induction s with
  | nil => simpa using arrowFree_left (s := []) hp trivial
  | cons c s ih =>
    cases s with
    | nil =>
      cases p with
      | nil => exact hs
      | cons d p =>
        refine ⟨isArrow_space (.inr (hp d (by simp))), ?_⟩
        simpa using arrowFree_left (s := []) hp trivial
    | cons d r => exact ⟨hs.1, ih hs.2⟩

theorem arrowFree_drop {s x : Str} (hs : arrowFree s) (hx : x = [] ∨ x.head? = some '<' ∨ x.head? = some '-') :
    ∀ i < s.length, isArrow ((s ++ x).drop i) = false := by
  induction s with
  | nil => intro i h; exact absurd h (by simp)
  | cons c s ih =>
    intro i hi
    cases i with
    | zero =>
      cases s with
      | nil =>
        cases x with
        | nil =>
          show isArrow [c] = false
          unfold isArrow
          simp
        | cons d r =>
          rw [List.cons_append, List.nil_append, List.drop_zero, isArrow_cons]
          unfold isArrow
          simp only [List.take_succ_cons, List.take_zero, Bool.or_eq_false_iff, beq_eq_false_iff_ne, ne_eq]
          refine ⟨fun e => ?_, fun e => ?_⟩
          · injection e with e1 e2
            exact hs e1
          · injection e with e1 e2
            injection e2 with e2 _
            subst e2
            rcases hx with h | h | h
            · cases h
            · injection h with h; exact absurd h (by decide)
            · injection h with h; exact absurd h (by decide)
      | cons d r =>
        rw [List.drop_zero, List.cons_append, List.cons_append, isArrow_cons]
        exact hs.1
    | succ i =>
      rw [List.cons_append, List.drop_succ_cons]
      have hs' : arrowFree s := by
        cases s with
        | nil => trivial
        | cons d r => exact hs.2
      exact ih hs' i (by simpa using hi)

theorem findArrow_none {s : Str} (hs : arrowFree s) : findArrow s = s.length := by
  unfold findArrow
  rw [List.find?_eq_none.2]
  · rfl
  · intro i hi
    have := arrowFree_drop (x := []) hs (.inl rfl) i (by simpa using hi)
    rw [List.append_nil] at this
    simp [this]

theorem findArrow_some {s : Str} (d : Dir) (x : Str) (hs : arrowFree s) (hc : '[' ∈ s → ']' ∈ s) :
    findArrow (s ++ (d.arrow ++ x)) = s.length := by
  unfold findArrow
  rw [(List.find?_range_eq_some (i := s.length)).2]
  · rfl
  · have hh : (d.arrow ++ x) = [] ∨ (d.arrow ++ x).head? = some '<' ∨ (d.arrow ++ x).head? = some '-' := by
      cases d
      · exact .inr (.inl rfl)
      · exact .inr (.inr rfl)
    refine ⟨?_, ?_, ?_⟩
    · rw [List.drop_left, List.take_left]
      have h1 : isArrow (d.arrow ++ x) = true := by cases d <;> rfl
      rw [h1]
      by_cases h : '[' ∈ s
      · simp [h, hc h]
      · simp [h]
    · cases d <;> simp [Dir.arrow]
    · intro i hi
      simp [arrowFree_drop hs hh i hi]

end arrows

section split

theorem splitComma_none {s : Str} (h : ',' ∉ s) : splitComma s = [s] := by
  induction s with
  | nil => rfl
  | cons c s ih =>
    unfold splitComma
    rw [if_neg (fun e => h (by simp [e])), ih (fun hc => h (by simp [hc]))]

theorem splitComma_append {s x : Str} (h : ',' ∉ s) : splitComma (s ++ ',' :: x) = s :: splitComma x := by
  induction s with
  | nil => rfl
  | cons c s ih =>
    rw [List.cons_append, splitComma, if_neg (fun e => h (by simp [e])), ih (fun hc => h (by simp [hc]))]

theorem splitSpace_label {rel x : Str} (h : ' ' ∉ rel) : splitSpace (rel ++ ' ' :: x) = .ok (rel, x) := by
  have h1 : (rel ++ ' ' :: x).takeWhile (· ≠ ' ') = rel := by
    induction rel with
    | nil => rfl
    | cons c rel ih =>
      rw [List.cons_append, List.takeWhile_cons_of_pos (by simpa using fun e : c = ' ' => h (by simp [e])), ih (fun hc => h (by simp [hc]))]
  have h2 : (rel ++ ' ' :: x).dropWhile (· ≠ ' ') = ' ' :: x := by
    clear h1
    induction rel with
    | nil => rfl
    | cons c rel ih =>
      rw [List.cons_append, List.dropWhile_cons_of_pos (by simpa using fun e : c = ' ' => h (by simp [e])), ih (fun hc => h (by simp [hc]))]
  unfold splitSpace
  rw [if_pos (by simp), h1, h2]
  rfl

theorem blank_comma {p : Str} (hp : Blank p) : ',' ∉ p := fun h => absurd (hp _ h) (by decide)

end split

/-- Consequences of a label. -/
theorem Label.trimmed {rel text s : Str} (h : Label rel text s) : Trimmed s := by
  obtain ⟨sp, _, rfl⟩ := h.write
  have := h.rel.1.append (b := ' ' :: sp) h.text
  simpa [List.append_assoc] using this

theorem Label.head {rel text s : Str} (h : Label rel text s) : s.head? ≠ some '[' := by
  obtain ⟨sp, _, rfl⟩ := h.write
  have h1 := h.rel.2.2
  have h2 := h.rel.1.ne_nil
  cases rel with
  | nil => exact absurd rfl h2
  | cons c r => exact h1

/-- What is written after an arrow begins and ends with something other than white space. -/
theorem Notation.trimmed {C : Str → Prop} {b : Bool} {d : Dir} {F : Forest} {s : Str} (h : Notation C b d F s) : b = false → Trimmed s := by
  induction h with
  | leaf hl => exact fun _ => hl.trimmed
  | @chain _ d' _ _ _ _ p q _ hl hp hq _ _ ih =>
    intro _
    have := hl.trimmed.append (b := p ++ d'.arrow ++ q) (ih rfl)
    simpa only [List.append_assoc] using this
  | list _ => exact fun _ => ⟨⟨'[', rfl, by decide⟩, ⟨']', by rw [← List.cons_append, List.getLast?_concat], by decide⟩⟩
  | item => intro h; cases h
  | items => intro h; cases h

/-- What has been read, with numbers from 1 on. -/
structure Good (st : Read) (prev : Nat) : Prop where
  nodes : ∀ x ∈ st.1.keys, x ≤ st.1.length
  edges : ∀ e ∈ st.2.keys, e.1 ≤ st.1.length ∧ e.2 ≤ st.1.length
  prev : prev ≤ st.1.length

/-- Reading a forest that hangs from `prev`. -/
def extend (st : Read) (prev : Nat) (F : Forest) : Read :=
  (st.1 ++ numbered (st.1.length + 1) F.texts, st.2 ++ F.edges prev (st.1.length + 1))

theorem numbered_cons (n : Nat) (t : Str) (l : List Str) : numbered n (t :: l) = (n, t) :: numbered (n + 1) l := by
  unfold numbered
  rw [List.zipIdx_cons, List.map_cons]
  congr 1
  rw [List.zipIdx_succ, List.map_map]
  apply List.map_congr_left
  intro e _
  show (n + (e.2 + 1), e.1) = (n + 1 + e.2, e.1)
  rw [show n + (e.2 + 1) = n + 1 + e.2 by omega]

theorem numbered_append (n : Nat) (l l' : List Str) : numbered n (l ++ l') = numbered n l ++ numbered (n + l.length) l' := by
  induction l generalizing n with
  | nil => rfl
  | cons t l ih =>
    rw [List.cons_append, numbered_cons, numbered_cons, ih, List.cons_append, List.length_cons]
    rw [show n + 1 + l.length = n + (l.length + 1) by omega]

theorem numbered_length (n : Nat) (l : List Str) : (numbered n l).length = l.length := by simp [numbered]

theorem numbered_keys (n : Nat) (l : List Str) : ∀ x ∈ Dict.keys (numbered n l), n ≤ x ∧ x < n + l.length := by
  intro x hx
  unfold Dict.keys numbered at hx
  simp only [List.map_map, List.mem_map, Function.comp] at hx
  obtain ⟨e, he, rfl⟩ := hx
  obtain ⟨_, h, _⟩ := List.mem_zipIdx he
  omega

theorem Forest.edges_bound (F : Forest) (u n : Nat) : ∀ e ∈ Dict.keys (F.edges u n),
    (e.1 = u ∨ n ≤ e.1 ∧ e.1 < n + F.texts.length) ∧ (e.2 = u ∨ n ≤ e.2 ∧ e.2 < n + F.texts.length) := by
  induction F generalizing u n with
  | nil => intro e he; cases he
  | cons d rel t kids rest ihk ihr =>
    intro e he
    unfold Forest.edges at he
    rw [Dict.keys_cons] at he
    have happ : ∀ a b : List ((Nat × Nat) × Str), Dict.keys (a ++ b) = Dict.keys a ++ Dict.keys b := fun a b => by
      unfold Dict.keys; rw [List.map_append]
    rw [happ] at he
    simp only [Forest.texts, List.length_cons, List.length_append]
    rcases List.mem_cons.1 he with rfl | he
    · cases d
      · exact ⟨.inr ⟨Nat.le_refl _, by simp only [Dir.edge]; omega⟩, .inl rfl⟩
      · exact ⟨.inl rfl, .inr ⟨Nat.le_refl _, by simp only [Dir.edge]; omega⟩⟩
    · rcases List.mem_append.1 he with he | he
      · have := ihk _ _ e he
        refine ⟨?_, ?_⟩
        · rcases this.1 with h | h
          · right; omega
          · right; omega
        · rcases this.2 with h | h
          · right; omega
          · right; omega
      · have := ihr _ _ e he
        refine ⟨?_, ?_⟩
        · rcases this.1 with h | h
          · left; exact h
          · right; omega
        · rcases this.2 with h | h
          · left; exact h
          · right; omega

theorem Good.extend {st : Read} {prev : Nat} (G : Good st prev) (F : Forest) : Good (extend st prev F) prev := by
  have hl : (Verif.Dep.extend st prev F).1.length = st.1.length + F.texts.length := by
    simp [Verif.Dep.extend, numbered_length]
  have happ : ∀ {κ ν : Type} (a b : List (κ × ν)), Dict.keys (a ++ b) = Dict.keys a ++ Dict.keys b := fun a b => by
    unfold Dict.keys; rw [List.map_append]
  have hp := G.prev
  refine ⟨?_, ?_, ?_⟩
  · intro x hx
    rw [hl]
    unfold Verif.Dep.extend at hx
    rw [happ] at hx
    rcases List.mem_append.1 hx with h | h
    · have := G.nodes x h; omega
    · have := numbered_keys _ _ x h; omega
  · intro e he
    rw [hl]
    unfold Verif.Dep.extend at he
    rw [happ] at he
    rcases List.mem_append.1 he with h | h
    · have := G.edges e h; omega
    · have := Forest.edges_bound _ _ _ e h
      rcases this with ⟨h1 | h1, h2 | h2⟩ <;> constructor <;> omega
  · rw [hl]; omega

theorem dict_set_new {κ ν : Type} [DecidableEq κ] (d : Dict κ ν) (k : κ) (v : ν) (h : k ∉ d.keys) : Dict.set d k v = d ++ [(k, v)] := by
  induction d with
  | nil => rfl
  | cons e d ih =>
    obtain ⟨a, b⟩ := e
    rw [Dict.keys_cons] at h
    have h1 : ¬ a = k := fun e => h (by simp [e])
    have h2 : k ∉ Dict.keys d := fun hk => h (by simp [hk])
    show (if a = k then _ else _) = _
    rw [if_neg h1, ih h2]
    rfl

/-- The state after a node has been read. -/
theorem read_node {st : Read} {prev : Nat} (G : Good st prev) (d : Dir) (rel text : Str) :
    (Dict.set st.1 (st.1.length + 1) text,
      if d.arrow = ['<', '-'] then Dict.set st.2 (st.1.length + 1, prev) rel else Dict.set st.2 (prev, st.1.length + 1) rel) =
      extend st prev (.cons d rel text .nil .nil) := by
  have h1 : st.1.length + 1 ∉ st.1.keys := fun h => by have := G.nodes _ h; omega
  have h2 : ∀ v, (st.1.length + 1, v) ∉ st.2.keys := fun v h => by have := (G.edges _ h).1; simp at this
  have h3 : ∀ v, (v, st.1.length + 1) ∉ st.2.keys := fun v h => by have := (G.edges _ h).2; simp at this
  rw [dict_set_new _ _ _ h1]
  unfold extend
  simp only [Forest.texts, Forest.edges, List.append_nil]
  rw [numbered_cons]
  congr 1
  cases d
  · rw [if_pos (by rfl : Dir.left.arrow = ['<', '-']), dict_set_new _ _ _ (h2 _)]
    rfl
  · rw [if_neg (by decide), dict_set_new _ _ _ (h3 _)]
    rfl

theorem extend_kids (st : Read) (prev : Nat) (d : Dir) (rel text : Str) (kids : Forest) :
    extend (extend st prev (.cons d rel text .nil .nil)) (st.1.length + 1) kids = extend st prev (.cons d rel text kids .nil) := by
  unfold extend
  simp only [Forest.texts, Forest.edges, List.append_nil, List.length_append, numbered_cons, List.length_cons, List.append_assoc]
  simp [numbered]

theorem extend_rest (st : Read) (prev : Nat) (d : Dir) (rel text : Str) (kids rest : Forest) :
    extend (extend st prev (.cons d rel text kids .nil)) prev rest = extend st prev (.cons d rel text kids rest) := by
  unfold extend
  simp only [Forest.texts, Forest.edges, List.append_nil, List.length_append, numbered_cons, numbered_append, List.length_cons,
    List.append_assoc, List.cons_append, numbered_length]
  rw [show st.1.length + (kids.texts.length + 1) + 1 = st.1.length + 1 + 1 + kids.texts.length by omega]

/-- One chain node. -/
theorem parse_label {st : Read} {prev n : Nat} (G : Good st prev) (d : Dir) {rel text s sp p x : Str} (hl : Label rel text s)
    (hsp : Blank sp) (hp : Blank p) (hx : x = [] ∨ ∃ d' : Dir, ∃ y, x = d'.arrow ++ y) (hlast : x = [] → p = []) :
    parseSub (n + 1) prev (sp ++ s ++ p ++ x) d.arrow st =
      if x = [] then .ok (extend st prev (.cons d rel text .nil .nil))
      else parseSub n (st.1.length + 1) (x.drop 2) (x.take 2) (extend st prev (.cons d rel text .nil .nil)) := by
  have hfree : arrowFree (sp ++ s ++ p) := arrowFree_right hp (arrowFree_left hsp (arrowFree_of hl.arrows.1 hl.arrows.2))
  have hclosed : '[' ∈ sp ++ s ++ p → ']' ∈ sp ++ s ++ p := by
    intro h
    rcases List.mem_append.1 h with h | h
    · rcases List.mem_append.1 h with h | h
      · exact absurd (hsp _ h) (by decide)
      · simp [hl.closed h]
    · exact absurd (hp _ h) (by decide)
  have hfind : findArrow (sp ++ s ++ p ++ x) = (sp ++ s ++ p).length := by
    rcases hx with rfl | ⟨d', y, rfl⟩
    · rw [List.append_nil, findArrow_none hfree]
    · exact findArrow_some d' y hfree hclosed
  have hstrip : strip (sp ++ s ++ p) = s := strip_pad hsp hp hl.trimmed
  have hne : ¬ (strip (sp ++ s ++ p ++ x)).length ≤ 0 := by
    intro h
    have h0 : strip (sp ++ s ++ p ++ x) = [] := List.length_eq_zero_iff.1 (Nat.le_zero.1 h)
    unfold strip at h0
    have h1 := List.reverse_eq_nil_iff.1 h0
    have h2 : ∀ c ∈ ((sp ++ s ++ p ++ x).dropWhile isSpace).reverse, isSpace c = true := List.dropWhile_eq_nil_iff.1 h1
    obtain ⟨⟨c, hc1, hc2⟩, _⟩ := hl.trimmed
    have h3 : (sp ++ s ++ p ++ x).dropWhile isSpace = s ++ p ++ x := by
      rw [List.append_assoc, List.append_assoc, dropWhile_blank hsp, ← List.append_assoc]
      apply dropWhile_head (c := c) _ hc2
      cases s with
      | nil => cases hc1
      | cons a s => exact hc1
    have h4 : c ∈ s := List.mem_of_head? hc1
    have := h2 c (by rw [h3]; simp [h4])
    rw [this] at hc2
    cases hc2
  have hhead : ¬ ((sp ++ s ++ p ++ x).head? = some '[' ∧ (sp ++ s ++ p ++ x).getLast? = some ']') := by
    rintro ⟨h, _⟩
    cases sp with
    | nil =>
      cases s with
      | nil => exact hl.trimmed.ne_nil rfl
      | cons a s => exact hl.head h
    | cons a sp =>
      simp only [List.cons_append, List.head?_cons, Option.some.injEq] at h
      have := hsp a (by simp)
      rw [h] at this
      exact absurd this (by decide)
  have htake : (sp ++ s ++ p ++ x).take (sp ++ s ++ p).length = sp ++ s ++ p := List.take_left ..
  have hdrop : (sp ++ s ++ p ++ x).drop (sp ++ s ++ p).length = x := List.drop_left ..
  obtain ⟨bl, hbl, hs⟩ := hl.write
  have hsplit : splitSpace s = .ok (rel, bl ++ text) := by rw [hs]; exact splitSpace_label hl.rel.2.1
  have ht : strip (bl ++ text) = text := by
    have := strip_pad (q := []) hbl (fun _ h => (nomatch h)) hl.text
    simpa using this
  rw [parseSub, if_neg hne, if_neg hhead]
  simp only [hfind, htake, hstrip, hsplit, bind, Except.bind, ht, strip_trimmed hl.rel.1]
  rw [read_node G d rel text, hdrop]
  have hd2 : (sp ++ s ++ p ++ x).drop ((sp ++ s ++ p).length + 2) = x.drop 2 := by
    rw [← List.drop_drop, hdrop]
  rw [hd2]
  apply if_congr _ rfl rfl
  rw [List.length_append (as := sp ++ s ++ p)]
  constructor
  · intro h; exact List.length_eq_zero_iff.1 (by omega)
  · rintro rfl; rfl

/-- The parser on everything that can be written with items free of commas. -/
theorem parse_notation {b : Bool} {d : Dir} {F : Forest} {s : Str} (h : Notation (fun e => ',' ∉ e) b d F s) :
    (b = false → ∀ n prev sp st, sp.length + s.length < n → Blank sp → (s.head? = some '[' → sp = []) → Good st prev →
      parseSub n prev (sp ++ s) d.arrow st = .ok (extend st prev F)) ∧
    (b = true → ∀ n prev st, s.length < n → Good st prev →
      ((splitComma s).map strip).foldlM (fun st node => parseSub n prev (strip node) d.arrow st) st = .ok (extend st prev F)) := by
  induction h with
  | @leaf d _ _ _ hl =>
    refine ⟨fun _ n prev sp st hn hsp _ G => ?_, fun h => (nomatch h)⟩
    obtain ⟨n, rfl⟩ : ∃ k, n = k + 1 := ⟨n - 1, by omega⟩
    have := parse_label (n := n) G d hl hsp (p := []) (x := []) (fun _ h => (nomatch h)) (.inl rfl) (fun _ => rfl)
    rw [if_pos rfl] at this
    simpa using this
  | @chain d d' rel text kids s p q s' hl hp hq hk hq' ih =>
    refine ⟨fun _ n prev sp st hn hsp _ G => ?_, fun h => (nomatch h)⟩
    obtain ⟨n, rfl⟩ : ∃ k, n = k + 1 := ⟨n - 1, by omega⟩
    have hx : d'.arrow ++ (q ++ s') ≠ [] := by cases d' <;> simp [Dir.arrow]
    have := parse_label (n := n) G d hl hsp hp (x := d'.arrow ++ (q ++ s')) (.inr ⟨d', _, rfl⟩) (fun h => absurd h hx)
    rw [if_neg hx] at this
    have e1 : (d'.arrow ++ (q ++ s')).drop 2 = q ++ s' := by cases d' <;> rfl
    have e2 : (d'.arrow ++ (q ++ s')).take 2 = d'.arrow := by cases d' <;> rfl
    rw [e1, e2] at this
    have e3 : sp ++ (s ++ p ++ d'.arrow ++ q ++ s') = sp ++ s ++ p ++ (d'.arrow ++ (q ++ s')) := by simp only [List.append_assoc]
    rw [e3, this]
    have h2 : d'.arrow.length = 2 := by cases d' <;> rfl
    have hlen : (extend st prev (.cons d rel text .nil .nil)).1.length = st.1.length + 1 := by
      simp [extend, numbered_length, Forest.texts]
    have G1 := G.extend (.cons d rel text .nil .nil)
    rw [ih.1 rfl n (st.1.length + 1) q _ (by simp only [List.length_append] at hn; omega) hq hq' ⟨G1.nodes, G1.edges, by rw [hlen]⟩]
    rw [extend_kids]
  | @list d F s hs ih =>
    refine ⟨fun _ n prev sp st hn hsp h0 G => ?_, fun h => (nomatch h)⟩
    have : sp = [] := h0 rfl
    subst this
    obtain ⟨n, rfl⟩ : ∃ k, n = k + 1 := ⟨n - 1, by omega⟩
    have hT : Trimmed ('[' :: (s ++ [']'])) := (Notation.list hs).trimmed rfl
    rw [List.nil_append, parseSub, if_neg (by rw [strip_trimmed hT]; simp), if_pos ⟨rfl, by rw [← List.cons_append, List.getLast?_concat]⟩]
    rw [List.tail_cons, List.dropLast_concat]
    exact ih.2 rfl n prev st (by simp only [List.length_nil, List.length_cons, List.length_append] at hn; omega) G
  | @item d rel text kids s p q hs hc hp hq ih =>
    refine ⟨fun h => (nomatch h), fun _ n prev st hn G => ?_⟩
    have hT := hs.trimmed rfl
    have hcomma : ',' ∉ p ++ s ++ q := by
      simp only [List.mem_append, not_or]
      exact ⟨⟨blank_comma hp, hc⟩, blank_comma hq⟩
    rw [splitComma_none hcomma, List.map_cons, List.map_nil, strip_pad hp hq hT]
    simp only [List.foldlM_cons, List.foldlM_nil, strip_trimmed hT]
    have := ih.1 rfl n prev [] st (by simp only [List.length_append] at hn; simp; omega) (fun _ h => (nomatch h)) (fun _ => rfl) G
    rw [List.nil_append] at this
    rw [this]
    rfl
  | @items d rel text kids rest s p q s' hs hc hp hq _ ih ih' =>
    refine ⟨fun h => (nomatch h), fun _ n prev st hn G => ?_⟩
    have hT := hs.trimmed rfl
    have hcomma : ',' ∉ p ++ s ++ q := by
      simp only [List.mem_append, not_or]
      exact ⟨⟨blank_comma hp, hc⟩, blank_comma hq⟩
    rw [splitComma_append hcomma, List.map_cons, strip_pad hp hq hT]
    simp only [List.foldlM_cons, strip_trimmed hT]
    simp only [List.length_append, List.length_cons] at hn
    have := ih.1 rfl n prev [] st (by simp; omega) (fun _ h => (nomatch h)) (fun _ => rfl) G
    rw [List.nil_append] at this
    rw [this]
    simp only [bind, Except.bind]
    have h2 := ih'.2 rfl n prev _ (by omega) (G.extend (.cons d rel text kids .nil))
    rw [h2, extend_rest]

/-- **C65 (partial).**  The full claim, `ReadsBack (fun _ => True)`, is false (`C65_false_nested`).  It holds as long as no item of
a list in brackets contains a comma, i.e. as long as lists of several branches are not nested. -/
theorem C65_partial : ReadsBack (fun e => ',' ∉ e) := by
  intro target d F s p q r h hp hq hr
  have hT := h.trimmed rfl
  have harr : Trimmed (d.arrow ++ q ++ s) := by
    refine Trimmed.append ?_ hT
    cases d
    · exact ⟨⟨'<', rfl, by decide⟩, ⟨'-', rfl, by decide⟩⟩
    · exact ⟨⟨'-', rfl, by decide⟩, ⟨'>', rfl, by decide⟩⟩
  have e : p ++ d.arrow ++ q ++ s ++ r = p ++ (d.arrow ++ q ++ s) ++ r := by simp only [List.append_assoc]
  unfold parsePattern
  simp only
  rw [e, strip_pad hp hr harr]
  have e1 : (d.arrow ++ q ++ s).drop 2 = q ++ s := by rw [List.append_assoc]; cases d <;> rfl
  have e2 : (d.arrow ++ q ++ s).take 2 = d.arrow := by rw [List.append_assoc]; cases d <;> rfl
  have e3 : strip (q ++ s) = s := by
    have := strip_pad (q := []) hq (fun _ h => (nomatch h)) hT
    simpa using this
  rw [e1, e2, e3]
  have := (parse_notation h).1 rfl (s.length + 1) 1 [] ([(1, strip target)], []) (by simp) (fun _ h => (nomatch h)) (fun _ => rfl)
    ⟨by simp [Dict.keys], by simp [Dict.keys], by simp⟩
  rw [List.nil_append] at this
  rw [this]
  simp [extend, numbered_cons]

/-! ### The claim fails for nested lists -/

theorem label_of {rel text s sp : Str} (hw : s = rel ++ ' ' :: (sp ++ text)) (hsp : sp.all isSpace = true)
    (h1 : (rel.head?.any (fun c => !isSpace c && c != '[')) = true) (h2 : (rel.getLast?.any (fun c => !isSpace c)) = true) (h3 : ' ' ∉ rel)
    (h4 : (text.head?.any (fun c => !isSpace c)) = true) (h5 : (text.getLast?.any (fun c => !isSpace c)) = true)
    (h6 : ¬ ['<', '-'] <:+: s ++ ['-']) (h7 : ¬ ['-', '>'] <:+: s) (h8 : '[' ∈ s → ']' ∈ s) : Label rel text s := by
  have key : ∀ {o : Option Char} {f : Char → Bool}, o.any f = true → ∃ c, o = some c ∧ f c = true := by
    intro o f h
    cases o with
    | none => cases h
    | some c => exact ⟨c, rfl, h⟩
  obtain ⟨c1, e1, g1⟩ := key h1
  obtain ⟨c2, e2, g2⟩ := key h2
  obtain ⟨c4, e4, g4⟩ := key h4
  obtain ⟨c5, e5, g5⟩ := key h5
  simp only [Bool.and_eq_true, Bool.not_eq_true', bne_iff_ne, ne_eq] at g1 g2 g4 g5
  exact ⟨⟨sp, fun c hc => List.all_eq_true.1 hsp c hc, hw⟩, ⟨⟨⟨c1, e1, g1.1⟩, ⟨c2, e2, g2⟩⟩, h3, by rw [e1]; simpa using g1.2⟩,
    ⟨⟨c4, e4, g4⟩, ⟨c5, e5, g5⟩⟩, ⟨h6, h7⟩, h8⟩

theorem blank_one : Blank [' '] := fun c h => by rw [List.mem_singleton.1 h]; decide

theorem blank_nil : Blank [] := fun _ h => (nomatch h)

/-- Two branches, the first of which has two branches. -/
def nestedForest : Forest :=
  .cons .right ['r'] ['a'] (.cons .right ['s'] ['b'] .nil (.cons .right ['t'] ['c'] .nil .nil)) (.cons .right ['u'] ['d'] .nil .nil)

def nestedText : Str := "[r a->[s b,t c],u d]".toList

theorem short_label (x y : Char) (hx : x ∈ ['r', 's', 't', 'u']) (hy : y ∈ ['a', 'b', 'c', 'd']) : Label [x] [y] [x, ' ', y] := by
  have : ∀ x ∈ ['r', 's', 't', 'u'], ∀ y ∈ ['a', 'b', 'c', 'd'], ([x].head?.any (fun c => !isSpace c && c != '[')) = true ∧
      ([x].getLast?.any (fun c => !isSpace c)) = true ∧ ' ' ∉ [x] ∧ ([y].head?.any (fun c => !isSpace c)) = true ∧
      ([y].getLast?.any (fun c => !isSpace c)) = true ∧ ¬ ['<', '-'] <:+: [x, ' ', y] ++ ['-'] ∧ ¬ ['-', '>'] <:+: [x, ' ', y] ∧
      ('[' ∈ [x, ' ', y] → ']' ∈ [x, ' ', y]) := by decide
  obtain ⟨h1, h2, h3, h4, h5, h6, h7, h8⟩ := this x hx y hy
  exact label_of (sp := []) rfl rfl h1 h2 h3 h4 h5 h6 h7 h8

theorem nested_notation : Notation (fun _ => True) false .right nestedForest nestedText := by
  have hl : ∀ (x y : Char), x ∈ ['r', 's', 't', 'u'] → y ∈ ['a', 'b', 'c', 'd'] →
      Notation (fun _ => True) false .right (.cons .right [x] [y] .nil .nil) [x, ' ', y] := fun x y hx hy => .leaf (short_label x y hx hy)
  have inner : Notation (fun _ => True) false .right (.cons .right ['s'] ['b'] .nil (.cons .right ['t'] ['c'] .nil .nil)) "[s b,t c]".toList :=
    .list (.items (p := []) (q := []) (hl 's' 'b' (by decide) (by decide)) trivial blank_nil blank_nil
      (.item (p := []) (q := []) (hl 't' 'c' (by decide) (by decide)) trivial blank_nil blank_nil))
  exact .list (.items (p := []) (q := []) (.chain (p := []) (q := []) (short_label 'r' 'a' (by decide) (by decide)) blank_nil blank_nil inner (fun _ => rfl)) trivial blank_nil blank_nil
    (.item (p := []) (q := []) (hl 'u' 'd' (by decide) (by decide)) trivial blank_nil blank_nil))

/-- **C65 is false** for nested lists: `->[r a->[s b,t c],u d]` is split at the inner comma, so that `c]` becomes a dependent of the
target and the relation of `b` becomes `[s`, without any error. -/
theorem C65_false_nested : ¬ ReadsBack (fun _ => True) ∧
    parsePattern ['x'] ("->".toList ++ nestedText) = .ok
      ([(1, ['x']), (2, ['a']), (3, ['b']), (4, ['c', ']']), (5, ['d'])],
        [((1, 2), ['r']), ((2, 3), ['[', 's']), ((1, 4), ['t']), ((1, 5), ['u'])]) := by
  have hw : parsePattern ['x'] ("->".toList ++ nestedText) = .ok
      ([(1, ['x']), (2, ['a']), (3, ['b']), (4, ['c', ']']), (5, ['d'])],
        [((1, 2), ['r']), ((2, 3), ['[', 's']), ((1, 4), ['t']), ((1, 5), ['u'])]) := by decide
  refine ⟨fun h => ?_, hw⟩
  have := h ['x'] .right nestedForest nestedText [] [] [] nested_notation blank_nil blank_nil blank_nil
  simp only [List.nil_append, List.append_nil] at this
  rw [show Dir.right.arrow = "->".toList from rfl, hw] at this
  exact absurd this (by decide)

/-- **C65**: white space between a later arrow and a bracket makes the brackets part of the texts. -/
theorem C65_false_space : parsePattern ['x'] "->r a-> [s b]".toList =
    .ok ([(1, ['x']), (2, ['a']), (3, ['b', ']'])], [((1, 2), ['r']), ((2, 3), ['[', 's'])]) := by decide

/-- C65 on a pattern with two arrows and a list of two branches, with white space. -/
example : parsePattern "x".toList " <- s b ->[r a , t c]".toList = .ok (numbered 1 ["x".toList, "b".toList, "a".toList, "c".toList],
    [((2, 1), ['s']), ((2, 3), ['r']), ((2, 4), ['t'])]) := by
  have hl : ∀ (x y : Char), x ∈ ['r', 's', 't', 'u'] → y ∈ ['a', 'b', 'c', 'd'] →
      Notation (fun e => ',' ∉ e) false .right (.cons .right [x] [y] .nil .nil) [x, ' ', y] := fun x y hx hy => .leaf (short_label x y hx hy)
  have h1 : Notation (fun e => ',' ∉ e) false .right (.cons .right ['r'] ['a'] .nil (.cons .right ['t'] ['c'] .nil .nil)) "[r a , t c]".toList :=
    .list (.items (p := []) (q := [' ']) (hl 'r' 'a' (by decide) (by decide)) (by decide) blank_nil blank_one
      (.item (p := [' ']) (q := []) (hl 't' 'c' (by decide) (by decide)) (by decide) blank_one blank_nil))
  have h2 : Notation (fun e => ',' ∉ e) false .left (.cons .left ['s'] ['b'] (.cons .right ['r'] ['a'] .nil (.cons .right ['t'] ['c'] .nil .nil)) .nil)
      (['s', ' ', 'b'] ++ [' '] ++ Dir.right.arrow ++ [] ++ "[r a , t c]".toList) :=
    .chain (short_label 's' 'b' (by decide) (by decide)) blank_one blank_nil h1 (fun _ => rfl)
  have h3 := C65_partial "x".toList .left _ _ [' '] [' '] [] h2 blank_one blank_one blank_nil
  have e1 : [' '] ++ Dir.left.arrow ++ [' '] ++ (['s', ' ', 'b'] ++ [' '] ++ Dir.right.arrow ++ [] ++ "[r a , t c]".toList) ++ [] =
      " <- s b ->[r a , t c]".toList := by decide
  rw [e1] at h3
  rw [h3]
  decide

end Verif.Dep
