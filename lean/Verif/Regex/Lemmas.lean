import Verif.Regex.Model

/-!
# Regular expressions: which pieces of text an expression accepts, and lemmas for computing matches
-/

namespace Verif.Regex

open Verif.Py
open Verif.Vocab.Plain (Str isSpace)
open Verif.Items (Match)

/-! ## What an expression accepts, without any order of trying -/

/-- `Acc u r p w z`: the expression accepts the piece `w` of a text, which `p` characters precede and `z` follows. -/
inductive Acc (u : Tables) : Re → Nat → Str → Str → Prop
  | eps (p : Nat) (z : Str) : Acc u .eps p [] z
  | one {c : Cls} {x : Char} (p : Nat) (z : Str) : c.has u x = true → Acc u (.one c) p [x] z
  | many {c : Cls} {lo : Nat} {w : Str} (p : Nat) (z : Str) :
      lo ≤ w.length → (∀ x ∈ w, c.has u x = true) → Acc u (.many c lo) p w z
  | optNone (c : Cls) (p : Nat) (z : Str) : Acc u (.opt c) p [] z
  | optSome {c : Cls} {x : Char} (p : Nat) (z : Str) : c.has u x = true → Acc u (.opt c) p [x] z
  | seq {a b : Re} {p : Nat} {v w z : Str} : Acc u a p v (w ++ z) → Acc u b (p + v.length) w z → Acc u (.seq a b) p (v ++ w) z
  | altLeft {a b : Re} {p : Nat} {w z : Str} : Acc u a p w z → Acc u (.alt a b) p w z
  | altRight {a b : Re} {p : Nat} {w z : Str} : Acc u b p w z → Acc u (.alt a b) p w z
  | grp {i : Nat} {a : Re} {p : Nat} {w z : Str} : Acc u a p w z → Acc u (.grp i a) p w z
  | bol (z : Str) : Acc u .bol 0 [] z
  | eol (p : Nat) {z : Str} : z = [] ∨ z = ['\n'] → Acc u .eol p [] z

theorem mem_down {lo n k : Nat} : k ∈ down lo n ↔ lo ≤ k ∧ k ≤ n := by
  rw [down, List.mem_reverse, List.mem_filter, List.mem_range]
  simp only [decide_eq_true_eq]
  omega

theorem span_le (u : Tables) (c : Cls) (t : Str) : span u c t ≤ t.length := by
  rw [span]
  exact (List.takeWhile_prefix _).length_le

theorem take_span {u : Tables} {c : Cls} {t : Str} {k : Nat} (h : k ≤ span u c t) : ∀ x ∈ t.take k, c.has u x = true := by
  induction t generalizing k with
  | nil => intro x hx; simp at hx
  | cons y ys ih =>
    cases k with
    | zero => intro x hx; simp at hx
    | succ k =>
      rw [span, List.takeWhile_cons] at h
      cases hy : c.has u y with
      | false => rw [hy] at h; simp at h
      | true =>
        rw [hy] at h
        simp only [if_true, List.length_cons, Nat.add_le_add_iff_right] at h
        intro x hx
        rw [List.take_succ_cons, List.mem_cons] at hx
        rcases hx with rfl | hx
        · exact hy
        · exact ih h x hx

theorem le_span {u : Tables} {c : Cls} {w z : Str} (h : ∀ x ∈ w, c.has u x = true) : w.length ≤ span u c (w ++ z) := by
  induction w with
  | nil => simp
  | cons y ys ih =>
    rw [span, List.cons_append, List.takeWhile_cons, h y (List.mem_cons_self ..), if_pos rfl, List.length_cons, List.length_cons]
    exact Nat.succ_le_succ (ih (fun x hx => h x (List.mem_cons_of_mem _ hx)))

/-- Matching consumes: the text that is left is the rest of the text. -/
theorem runs_rest {u : Tables} {r : Re} : ∀ {s t : St}, t ∈ r.runs u s → s.pos ≤ t.pos ∧ t.rest = s.rest.drop (t.pos - s.pos) ∧
    t.pos - s.pos ≤ s.rest.length := by
  induction r with
  | eps => intro s t h; rw [Re.runs, List.mem_singleton] at h; subst h; simp
  | one c =>
    intro s t h
    rw [Re.runs] at h
    cases hr : s.rest with
    | nil => rw [hr] at h; simp at h
    | cons x xs =>
      rw [hr] at h
      simp only at h
      split at h
      · rw [List.mem_singleton] at h; subst h; simp [St.skip, hr]
      · simp at h
  | many c lo =>
    intro s t h
    rw [Re.runs, List.mem_map] at h
    obtain ⟨k, hk, rfl⟩ := h
    have := span_le u c s.rest
    have := (mem_down.1 hk).2
    simp only [St.skip]
    refine ⟨by omega, ?_, by omega⟩
    rw [Nat.add_sub_cancel_left]
  | opt c =>
    intro s t h
    rw [Re.runs] at h
    cases hr : s.rest with
    | nil => rw [hr] at h; simp at h; subst h; simp [hr]
    | cons x xs =>
      rw [hr] at h
      simp only at h
      split at h
      · rw [List.mem_cons, List.mem_singleton] at h
        rcases h with h | h <;> subst h <;> simp [St.skip, hr]
      · rw [List.mem_singleton] at h; subst h; simp [hr]
  | seq a b iha ihb =>
    intro s t h
    rw [Re.runs, List.mem_flatMap] at h
    obtain ⟨m, hm, ht⟩ := h
    obtain ⟨h1, h2, h3⟩ := iha hm
    obtain ⟨h4, h5, h6⟩ := ihb ht
    rw [h2, List.length_drop] at h6
    refine ⟨by omega, ?_, by omega⟩
    rw [h5, h2, List.drop_drop]
    congr 1
    omega
  | alt a b iha ihb =>
    intro s t h
    rw [Re.runs, List.mem_append] at h
    rcases h with h | h
    · exact iha h
    · exact ihb h
  | grp i a ih =>
    intro s t h
    rw [Re.runs, List.mem_map] at h
    obtain ⟨m, hm, rfl⟩ := h
    have := ih hm
    exact this
  | bol =>
    intro s t h
    rw [Re.runs] at h
    split at h
    · rw [List.mem_singleton] at h; subst h; simp
    · simp at h
  | eol =>
    intro s t h
    rw [Re.runs] at h
    split at h
    · rw [List.mem_singleton] at h; subst h; simp
    · simp at h

/-- The successes of the search are exactly the pieces that are accepted. -/
theorem runs_iff (u : Tables) (r : Re) : ∀ (s : St) (w z : Str), s.rest = w ++ z →
    ((∃ t ∈ r.runs u s, t.pos = s.pos + w.length) ↔ Acc u r s.pos w z) := by
  induction r with
  | eps =>
    intro s w z hs
    rw [Re.runs]
    constructor
    · rintro ⟨t, ht, hp⟩
      rw [List.mem_singleton] at ht
      subst ht
      have : w = [] := List.length_eq_zero_iff.1 (by omega)
      subst this
      exact .eps _ _
    · intro h
      cases h
      exact ⟨s, by simp, by simp⟩
  | one c =>
    intro s w z hs
    rw [Re.runs]
    constructor
    · rintro ⟨t, ht, hp⟩
      cases hr : s.rest with
      | nil => rw [hr] at ht; simp at ht
      | cons x xs =>
        rw [hr] at ht hs
        simp only at ht
        split at ht
        · rename_i hx
          rw [List.mem_singleton] at ht
          subst ht
          simp only [St.skip, Nat.add_left_cancel_iff] at hp
          match w, hp with
          | [y], _ =>
            rw [List.singleton_append, List.cons.injEq] at hs
            rw [← hs.1]
            exact .one _ _ hx
        · simp at ht
    · intro h
      cases h with
      | one _ _ hx =>
        rename_i x
        rw [hs]
        simp only [List.singleton_append, hx, if_true]
        exact ⟨_, List.mem_singleton.2 rfl, rfl⟩
  | many c lo =>
    intro s w z hs
    rw [Re.runs]
    constructor
    · rintro ⟨t, ht, hp⟩
      rw [List.mem_map] at ht
      obtain ⟨k, hk, rfl⟩ := ht
      rw [mem_down] at hk
      simp only [St.skip, Nat.add_left_cancel_iff] at hp
      subst hp
      refine .many _ _ hk.1 ?_
      have := take_span hk.2
      rw [hs, List.take_left] at this
      exact this
    · intro h
      cases h with
      | many _ _ hl hw =>
        refine ⟨s.skip w.length, List.mem_map.2 ⟨_, mem_down.2 ⟨hl, ?_⟩, rfl⟩, rfl⟩
        rw [hs]
        exact le_span hw
  | opt c =>
    intro s w z hs
    rw [Re.runs]
    constructor
    · rintro ⟨t, ht, hp⟩
      have hnil : t = s → Acc u (.opt c) s.pos w z := by
        intro e
        subst e
        have : w = [] := List.length_eq_zero_iff.1 (by omega)
        subst this
        exact .optNone _ _ _
      cases hr : s.rest with
      | nil => rw [hr] at ht; simp only [List.mem_singleton] at ht; exact hnil ht
      | cons x xs =>
        rw [hr] at ht hs
        simp only at ht
        split at ht
        · rename_i hx
          rw [List.mem_cons, List.mem_singleton] at ht
          rcases ht with ht | ht
          · subst ht
            simp only [St.skip, Nat.add_left_cancel_iff] at hp
            match w, hp with
            | [y], _ =>
              rw [List.singleton_append, List.cons.injEq] at hs
              rw [← hs.1]
              exact .optSome _ _ hx
          · exact hnil ht
        · rw [List.mem_singleton] at ht; exact hnil ht
    · intro h
      cases h with
      | optNone =>
        refine ⟨s, ?_, by simp⟩
        cases s.rest with
        | nil => simp
        | cons x xs => simp only; split <;> simp
      | optSome _ _ hx =>
        rename_i x
        rw [hs]
        simp only [List.singleton_append, hx, if_true]
        exact ⟨_, List.mem_cons_self .., rfl⟩
  | seq a b iha ihb =>
    intro s w z hs
    rw [Re.runs]
    constructor
    · rintro ⟨t, ht, hp⟩
      rw [List.mem_flatMap] at ht
      obtain ⟨m, hm, ht⟩ := ht
      obtain ⟨h1, h2, h3⟩ := runs_rest hm
      obtain ⟨h4, h5, h6⟩ := runs_rest ht
      have hw : w = w.take (m.pos - s.pos) ++ w.drop (m.pos - s.pos) := (List.take_append_drop _ _).symm
      have hle : m.pos - s.pos ≤ w.length := by omega
      have hmr : m.rest = w.drop (m.pos - s.pos) ++ z := by
        rw [h2, hs, List.drop_append_of_le_length hle]
      have hl : (w.take (m.pos - s.pos)).length = m.pos - s.pos := by rw [List.length_take]; omega
      have hA := (iha s (w.take (m.pos - s.pos)) (w.drop (m.pos - s.pos) ++ z) (by
        rw [hs, ← List.append_assoc, List.take_append_drop])).1 ⟨m, hm, by rw [hl]; omega⟩
      have hB := (ihb m (w.drop (m.pos - s.pos)) z hmr).1 ⟨t, ht, by rw [List.length_drop]; omega⟩
      rw [hw]
      refine .seq hA ?_
      rw [hl]
      have : s.pos + (m.pos - s.pos) = m.pos := by omega
      rw [this]
      exact hB
    · intro h
      cases h with
      | seq hA hB =>
        rename_i v w
        rw [List.append_assoc] at hs
        obtain ⟨m, hm, hmp⟩ := (iha s v (w ++ z) hs).2 hA
        obtain ⟨h1, h2, h3⟩ := runs_rest hm
        have hmr : m.rest = w ++ z := by
          rw [h2, hs, hmp, Nat.add_sub_cancel_left, List.drop_left]
        rw [← hmp] at hB
        obtain ⟨t, ht, htp⟩ := (ihb m w z hmr).2 hB
        refine ⟨t, List.mem_flatMap.2 ⟨m, hm, ht⟩, ?_⟩
        rw [htp, hmp, List.length_append]
        omega
  | alt a b iha ihb =>
    intro s w z hs
    rw [Re.runs]
    constructor
    · rintro ⟨t, ht, hp⟩
      rw [List.mem_append] at ht
      rcases ht with ht | ht
      · exact .altLeft ((iha s w z hs).1 ⟨t, ht, hp⟩)
      · exact .altRight ((ihb s w z hs).1 ⟨t, ht, hp⟩)
    · intro h
      cases h with
      | altLeft h =>
        obtain ⟨t, ht, hp⟩ := (iha s w z hs).2 h
        exact ⟨t, List.mem_append_left _ ht, hp⟩
      | altRight h =>
        obtain ⟨t, ht, hp⟩ := (ihb s w z hs).2 h
        exact ⟨t, List.mem_append_right _ ht, hp⟩
  | grp i a ih =>
    intro s w z hs
    rw [Re.runs]
    constructor
    · rintro ⟨t, ht, hp⟩
      rw [List.mem_map] at ht
      obtain ⟨m, hm, rfl⟩ := ht
      exact .grp ((ih s w z hs).1 ⟨m, hm, hp⟩)
    · intro h
      cases h with
      | grp h =>
        obtain ⟨t, ht, hp⟩ := (ih s w z hs).2 h
        exact ⟨_, List.mem_map.2 ⟨t, ht, rfl⟩, hp⟩
  | bol =>
    intro s w z hs
    rw [Re.runs]
    constructor
    · rintro ⟨t, ht, hp⟩
      split at ht
      · rename_i h0
        rw [List.mem_singleton] at ht
        subst ht
        have : w = [] := List.length_eq_zero_iff.1 (by omega)
        subst this
        rw [h0]
        exact .bol _
      · simp at ht
    · intro h
      cases hp : s.pos with
      | zero =>
        rw [hp] at h
        cases h
        exact ⟨s, by simp, by simp [hp]⟩
      | succ n =>
        rw [hp] at h
        nomatch h
  | eol =>
    intro s w z hs
    rw [Re.runs]
    constructor
    · rintro ⟨t, ht, hp⟩
      split at ht
      · rename_i h0
        rw [List.mem_singleton] at ht
        subst ht
        have : w = [] := List.length_eq_zero_iff.1 (by omega)
        subst this
        exact .eol _ (by rw [hs] at h0; exact h0)
      · simp at ht
    · intro h
      cases h with
      | eol _ hz =>
        rw [List.nil_append] at hs
        rw [hs, if_pos hz]
        exact ⟨s, by simp, by simp⟩

/-- A pattern matches a text exactly if it accepts some start of the text. -/
theorem exec_isSome (u : Tables) (r : Re) (n : Nat) (text : Str) :
    (r.exec u n text).isSome = true ↔ ∃ w z, text = w ++ z ∧ Acc u r 0 w z := by
  have hx : (r.exec u n text).isSome = true ↔ ∃ t, t ∈ r.runs u ⟨0, text, []⟩ := by
    rw [Re.exec, Option.isSome_map]
    cases hr : r.runs u ⟨0, text, []⟩ with
    | nil => simp
    | cons t ts => simp only [List.head?_cons, Option.isSome_some, true_iff]; exact ⟨t, List.mem_cons_self ..⟩
  rw [hx]
  constructor
  · rintro ⟨t, ht⟩
    obtain ⟨h1, h2, h3⟩ := runs_rest ht
    simp only [Nat.sub_zero] at h3
    refine ⟨text.take t.pos, text.drop t.pos, (List.take_append_drop _ _).symm, ?_⟩
    refine (runs_iff u r ⟨0, text, []⟩ _ _ (List.take_append_drop _ _).symm).1 ⟨t, ht, ?_⟩
    rw [List.length_take]
    simp only
    omega
  · rintro ⟨w, z, e, h⟩
    obtain ⟨t, ht, _⟩ := (runs_iff u r ⟨0, text, []⟩ w z e).2 h
    exact ⟨t, ht⟩

/-- The whole match (group 0) is a piece that is accepted. -/
theorem exec_group0 {u : Tables} {r : Re} {n : Nat} {text : Str} {m : Match} (h : r.exec u n text = some m) :
    ∃ w z, text = w ++ z ∧ Acc u r 0 w z ∧ m.head? = some (some w) ∧ m.length = n + 1 := by
  rw [Re.exec] at h
  cases hr : r.runs u ⟨0, text, []⟩ with
  | nil => rw [hr] at h; simp at h
  | cons t ts =>
    rw [hr] at h
    simp only [List.head?_cons, Option.map_some, Option.some.injEq] at h
    have ht : t ∈ r.runs u ⟨0, text, []⟩ := hr ▸ List.mem_cons_self ..
    obtain ⟨h1, h2, h3⟩ := runs_rest ht
    simp only [Nat.sub_zero] at h3
    refine ⟨text.take t.pos, text.drop t.pos, (List.take_append_drop _ _).symm, ?_, ?_, ?_⟩
    · refine (runs_iff u r ⟨0, text, []⟩ _ _ (List.take_append_drop _ _).symm).1 ⟨t, ht, ?_⟩
      rw [List.length_take]
      simp only
      omega
    · rw [← h]; rfl
    · rw [← h]; simp

/-! ## Reading patterns piece by piece -/

/-- A pattern may be read piece by piece. -/
theorem lex_append {md : Mode} {a b : Str} {ts : List Tok} (h : lex md a = some ts) :
    lex md (a ++ b) = (lex .out b).map (ts ++ ·) := by
  induction a generalizing md ts with
  | nil =>
    cases md with
    | out =>
      rw [lex, Option.some.injEq] at h
      subst h
      simp
    | _ => simp [lex] at h
  | cons c cs ih =>
    rw [List.cons_append]
    cases md with
    | out =>
      rw [lex] at h ⊢
      by_cases h1 : c = '\\'
      · rw [if_pos h1] at h ⊢; exact ih h
      · rw [if_neg h1] at h ⊢
        by_cases h2 : c = '['
        · rw [if_pos h2] at h ⊢; exact ih h
        · rw [if_neg h2] at h ⊢
          cases hp : plain c with
          | none => rw [hp] at h; simp at h
          | some t =>
            rw [hp] at h
            cases hl : lex .out cs with
            | none => rw [hl] at h; simp at h
            | some l =>
              rw [hl] at h
              simp only [Option.bind_eq_bind, Option.bind_some, Option.pure_def, Option.some.injEq] at h
              subst h
              rw [ih hl]
              cases lex .out b <;> simp
    | esc =>
      rw [lex] at h ⊢
      cases hp : escape c with
      | none => rw [hp] at h; simp at h
      | some t =>
        rw [hp] at h
        cases hl : lex .out cs with
        | none => rw [hl] at h; simp at h
        | some l =>
          rw [hl] at h
          simp only [Option.bind_eq_bind, Option.bind_some, Option.pure_def, Option.some.injEq] at h
          subst h
          rw [ih hl]
          cases lex .out b <;> simp
    | cls0 =>
      rw [lex] at h ⊢
      by_cases h1 : c = '^'
      · rw [if_pos h1] at h ⊢; exact ih h
      · rw [if_neg h1] at h ⊢
        by_cases h2 : c = ']'
        · rw [if_pos h2] at h; simp at h
        · rw [if_neg h2] at h ⊢
          cases hp : clsStep false [] c with
          | none => rw [hp] at h; simp at h
          | some md => rw [hp] at h; exact ih h
    | cls neg ms =>
      rw [lex] at h ⊢
      by_cases h1 : c = ']'
      · rw [if_pos h1] at h ⊢
        by_cases h2 : ms = []
        · rw [if_pos h2] at h; simp at h
        · rw [if_neg h2] at h ⊢
          cases hl : lex .out cs with
          | none => rw [hl] at h; simp at h
          | some l =>
            rw [hl] at h
            simp only [Option.bind_eq_bind, Option.bind_some, Option.pure_def, Option.some.injEq] at h
            subst h
            rw [ih hl]
            cases lex .out b <;> simp
      · rw [if_neg h1] at h ⊢
        cases hp : clsStep neg ms c with
        | none => rw [hp] at h; simp at h
        | some md => rw [hp] at h; exact ih h
    | clsEsc neg ms =>
      rw [lex] at h ⊢
      cases hp : escape c with
      | none => rw [hp] at h; simp at h
      | some m => rw [hp] at h; exact ih h
    | clsDash neg ms a =>
      rw [lex] at h ⊢
      by_cases h1 : c = ']'
      · rw [if_pos h1] at h ⊢
        cases hl : lex .out cs with
        | none => rw [hl] at h; simp at h
        | some l =>
          rw [hl] at h
          simp only [Option.bind_eq_bind, Option.bind_some, Option.pure_def, Option.some.injEq] at h
          subst h
          rw [ih hl]
          cases lex .out b <;> simp
      · rw [if_neg h1] at h ⊢
        by_cases h2 : c = '\\' ∨ c = '['
        · rw [if_pos h2] at h; simp at h
        · rw [if_neg h2] at h ⊢
          by_cases h3 : a.toNat ≤ c.toNat
          · rw [if_pos h3] at h ⊢; exact ih h
          · rw [if_neg h3] at h; simp at h

theorem lex_two {a b : Str} {ts us : List Tok} (ha : lex .out a = some ts) (hb : lex .out b = some us) :
    lex .out (a ++ b) = some (ts ++ us) := by
  rw [lex_append ha, hb]; rfl

/-- A sequence of expressions. -/
def chain (rs : List Re) : Re := rs.foldr .seq .eps

theorem seqOf_chain (l : List Re) : seqOf l = chain l.reverse := by
  rw [seqOf, chain, List.foldr_reverse]

/-- The parts `ts` of a pattern add the expressions `rs n` with `k` groups, if `n` groups precede. -/
def Adds (ts : List Tok) (rs : Nat → List Re) (k : Nat) : Prop :=
  ∀ (f : Frame) (st : List (Nat × Frame)) (n : Nat),
    ts.foldlM parseStep ⟨f, st, n⟩ = some ⟨{ f with cur := (rs n).reverse ++ f.cur }, st, n + k⟩

theorem Adds.nil : Adds [] (fun _ => []) 0 := fun _ _ _ => rfl

theorem Adds.append {ts us : List Tok} {rs ss : Nat → List Re} {k l : Nat} (h : Adds ts rs k) (h' : Adds us ss l) :
    Adds (ts ++ us) (fun n => rs n ++ ss (n + k)) (k + l) := by
  intro f st n
  rw [List.foldlM_append, h f st n]
  simp only [Option.bind_eq_bind, Option.bind_some]
  rw [h' _ st (n + k)]
  simp only [List.reverse_append, List.append_assoc, Nat.add_assoc]

/-- Compiling a pattern without `|` outside of groups. -/
theorem compile_adds {p : Str} {ts : List Tok} {rs : Nat → List Re} {k : Nat} (hl : lex .out p = some ts) (h : Adds ts rs k) :
    compile p = some (chain (rs 0), k) := by
  rw [compile, hl]
  simp only [Option.bind_eq_bind, Option.bind_some]
  rw [h ⟨[], []⟩ [] 0]
  simp only [Option.bind_some, if_true, List.append_nil, Nat.zero_add, Frame.re, List.foldl_nil, seqOf_chain,
    List.reverse_reverse]

/-- The characters that stand for themselves in a pattern. -/
def Plain (c : Char) : Prop := c ∉ ['\\', '[', '(', ')', '{', '}', '|', '^', '$', '*', '+', '?', '.']

instance (c : Char) : Decidable (Plain c) := inferInstanceAs (Decidable (c ∉ _))

/-- The expression of a character. -/
abbrev chrRe (c : Char) : Re := .one (.one (.chr c))

theorem plain_plain {c : Char} (h : Plain c) : c ≠ '\\' ∧ c ≠ '[' ∧ plain c = some (.cls (.one (.chr c))) := by
  simp only [Plain, List.mem_cons, List.not_mem_nil, or_false, not_or] at h
  obtain ⟨h1, h2, h3, h4, h5, h6, h7, h8, h9, h10, h11, h12, h13⟩ := h
  refine ⟨h1, h2, ?_⟩
  simp [plain, h3, h4, h5, h6, h7, h8, h9, h10, h11, h12, h13]

theorem lex_word {w : Str} (h : ∀ c ∈ w, Plain c) : lex .out w = some (w.map (fun c => .cls (.one (.chr c)))) := by
  induction w with
  | nil => rfl
  | cons c cs ih =>
    obtain ⟨h1, h2, h3⟩ := plain_plain (h c (List.mem_cons_self ..))
    rw [lex, if_neg h1, if_neg h2, h3, ih (fun x hx => h x (List.mem_cons_of_mem _ hx))]
    rfl

theorem Adds.word (w : Str) : Adds (w.map (fun c => .cls (.one (.chr c)))) (fun _ => w.map chrRe) 0 := by
  induction w with
  | nil => exact Adds.nil
  | cons c cs ih =>
    have h1 : Adds [.cls (.one (.chr c))] (fun _ => [chrRe c]) 0 := fun f st n => rfl
    exact h1.append ih

theorem runs_chain_cons (u : Tables) (r : Re) (rs : List Re) (s : St) :
    (chain (r :: rs)).runs u s = (r.runs u s).flatMap ((chain rs).runs u) := rfl

theorem runs_chain_append (u : Tables) (rs rs' : List Re) (s : St) :
    (chain (rs ++ rs')).runs u s = ((chain rs).runs u s).flatMap ((chain rs').runs u) := by
  induction rs generalizing s with
  | nil => show _ = [s].flatMap _; simp
  | cons r rs ih =>
    rw [List.cons_append, runs_chain_cons, runs_chain_cons, List.flatMap_assoc]
    exact List.flatMap_congr (fun t _ => ih t)

theorem skip_skip (s : St) (a b : Nat) : (s.skip a).skip b = s.skip (a + b) := by
  simp [St.skip, Nat.add_assoc, List.drop_drop]

theorem runs_chr (u : Tables) (c : Char) (s : St) : (chrRe c).runs u s = if [c] <+: s.rest then [s.skip 1] else [] := by
  rw [Re.runs]
  cases hr : s.rest with
  | nil => simp
  | cons x xs =>
    by_cases hx : x = c
    · subst hx
      simp [Cls.has, Mem.has]
    · have : ¬ c = x := fun e => hx e.symm
      simp [Cls.has, Mem.has, hx, this]

/-- A word matches where the text goes on with the word. -/
theorem runs_word (u : Tables) (w : Str) (s : St) :
    (chain (w.map chrRe)).runs u s = if w <+: s.rest then [s.skip w.length] else [] := by
  induction w generalizing s with
  | nil =>
    show [s] = _
    simp [St.skip]
  | cons c cs ih =>
    rw [List.map_cons, runs_chain_cons, runs_chr]
    by_cases h : [c] <+: s.rest
    · rw [if_pos h]
      obtain ⟨t, ht⟩ := h
      rw [List.singleton_append] at ht
      simp only [List.flatMap_cons, List.flatMap_nil, List.append_nil]
      rw [ih, skip_skip, List.length_cons, Nat.add_comm 1]
      have : (s.skip 1).rest = t := by rw [St.skip, ← ht]; rfl
      rw [this, ← ht]
      by_cases hp : cs <+: t <;> simp [hp]
    · rw [if_neg h, if_neg]
      · rfl
      · rintro ⟨t, ht⟩
        exact h ⟨cs ++ t, by rw [← ht]; rfl⟩

end Verif.Regex
