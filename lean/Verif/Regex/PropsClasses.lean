import Verif.Regex.PropsTemplates

/-!
# More about patterns and lines: classes, line ends (C181-C186)
-/

namespace Verif.Regex

open Verif.Py
open Verif.Vocab.Plain (Str isSpace isBreak strip)
open Verif.Vocab (Vocab)
open Verif.Dep (groupStr)

/-! ## Line ends -/

theorem corpusLines_crlf (acc body rest : Str) (h : ∀ c ∈ body, isBreak c = false) :
    corpusLines acc (body ++ '\r' :: '\n' :: rest) = (acc.reverse ++ body ++ ['\r', '\n']) :: corpusLines [] rest := by
  induction body generalizing acc with
  | nil =>
    rw [List.nil_append, corpusLines, if_pos (by decide), if_pos ⟨rfl, rfl⟩, corpusLines, if_pos (by decide),
      if_neg (by rintro ⟨h, _⟩; exact absurd h (by decide))]
    simp
  | cons c cs ih =>
    rw [List.cons_append, corpusLines, h c (List.mem_cons_self ..), if_neg (by simp),
      ih _ (fun x hx => h x (List.mem_cons_of_mem _ hx))]
    simp

theorem corpusLines_last (acc body : Str) (h : ∀ c ∈ body, isBreak c = false) :
    corpusLines acc body = if acc = [] ∧ body = [] then [] else [acc.reverse ++ body] := by
  induction body generalizing acc with
  | nil =>
    rw [corpusLines]
    by_cases ha : acc = [] <;> simp [ha]
  | cons c cs ih =>
    rw [corpusLines, h c (List.mem_cons_self ..), if_neg (by simp), ih _ (fun x hx => h x (List.mem_cons_of_mem _ hx))]
    simp

theorem strip_fine_crlf {line : Str} (h : Fine line) : strip (line ++ ['\r', '\n']) = line := by
  rcases h.2 with rfl | ht
  · decide
  · have := Verif.Dep.strip_pad (p := []) (q := ['\r', '\n']) (s := line) (fun _ h => (nomatch h))
      (by intro c hc; simp only [List.mem_cons, List.not_mem_nil, or_false] at hc; rcases hc with rfl | rfl <;> decide) ht
    simpa using this

theorem strip_fine_bare {line : Str} (h : Fine line) : strip line = line := by
  rcases h.2 with rfl | ht
  · decide
  · have := Verif.Dep.strip_pad (p := []) (q := []) (s := line) (fun _ h => (nomatch h)) (fun _ h => (nomatch h)) ht
    simpa using this

/-- The text of lines with their ends (`true`: carriage return and newline, as on Windows), and a last line without an end. -/
def endsText (lines : List (Str × Bool)) (last : Str) : Str :=
  lines.flatMap (fun l => l.1 ++ (if l.2 then ['\r', '\n'] else ['\n'])) ++ last

/-- **C182** (line ends).  The lines are the same, with the same numbers, whether they end as on Windows or on Unix, and whether or not
the last line has an end. -/
theorem C182_ends {lines : List (Str × Bool)} (h : ∀ l ∈ lines, Fine l.1) {last : Str} (hl : Fine last) :
    fileLines (endsText lines last) = lines.map (·.1) ++ (if last = [] then [] else [last]) := by
  unfold fileLines
  induction lines with
  | nil =>
    show (corpusLines [] last).map strip = _
    rw [corpusLines_last [] last hl.1]
    by_cases he : last = []
    · simp [he]
    · simp [he, strip_fine_bare hl]
  | cons l ls ih =>
    have hf := h l (List.mem_cons_self ..)
    have ih := ih (fun x hx => h x (List.mem_cons_of_mem _ hx))
    obtain ⟨l, b⟩ := l
    cases b with
    | true =>
      have e : endsText ((l, true) :: ls) last = l ++ '\r' :: '\n' :: endsText ls last := by simp [endsText]
      rw [e, corpusLines_crlf [] l _ hf.1, List.map_cons, ih, List.reverse_nil, List.nil_append, strip_fine_crlf hf]
      rfl
    | false =>
      have e : endsText ((l, false) :: ls) last = l ++ '\n' :: endsText ls last := by simp [endsText]
      rw [e, corpusLines_row [] l _ hf.1, List.map_cons, ih, List.reverse_nil, List.nil_append, strip_fine hf]
      rfl

example : Fine "the\tDT\tthe".toList ∧ endsText [("a".toList, true), ([], false), ("b".toList, true)] "c".toList = "a\r\n\nb\r\nc".toList ∧
    fileLines "a\r\n\nb\r\nc".toList = ["a".toList, [], "b".toList, "c".toList] := by
  refine ⟨⟨by decide +kernel, .inr ⟨⟨'t', by decide +kernel, by decide⟩, ⟨'e', by decide +kernel, by decide⟩⟩⟩, by decide +kernel, by decide +kernel⟩

/-! ## Numbers of groups -/

theorem quant_n {p q : Ps} {f : Cls → Re} (h : quant p f = some q) : q.n = p.n := by
  unfold quant at h
  split at h
  · simp only [Option.some.injEq] at h
    rw [← h]
  · cases h

theorem parseStep_n {p q : Ps} {t : Tok} (h : parseStep p t = some q) : q.n = p.n + if t = .open then 1 else 0 := by
  cases t with
  | «open» => simp only [parseStep, Option.some.injEq] at h; rw [← h]; rfl
  | star => exact quant_n h
  | plus => exact quant_n h
  | quest => exact quant_n h
  | close =>
    unfold parseStep at h
    simp only at h
    split at h
    · cases h
    · simp only [Option.some.injEq] at h; rw [← h]; rfl
  | _ => simp only [parseStep, Option.some.injEq] at h; rw [← h]; rfl

theorem parse_n {ts : List Tok} {p q : Ps} (h : ts.foldlM parseStep p = some q) : q.n = p.n + ts.count .open := by
  induction ts generalizing p with
  | nil => simp only [List.foldlM_nil, Option.pure_def, Option.some.injEq] at h; rw [← h]; rfl
  | cons t ts ih =>
    rw [List.foldlM_cons] at h
    cases hp : parseStep p t with
    | none => rw [hp] at h; cases h
    | some p' =>
      rw [hp] at h
      rw [ih h, parseStep_n hp, List.count_cons]
      by_cases ht : t = .open
      · simp [ht]; omega
      · simp [ht]

/-- **C181** (how many groups there are).  A match has one group for every parenthesis of the pattern, whether the groups are nested or
not, besides the whole match. -/
theorem C181_groups (u : Tables) {p text : Str} {m : Verif.Items.Match} (h : reMatch u p text = some m) :
    ∃ ts, lex .out p = some ts ∧ m.length = ts.count .open + 1 := by
  unfold reMatch compile at h
  cases hl : lex .out p with
  | none => rw [hl] at h; cases h
  | some ts =>
    refine ⟨ts, rfl, ?_⟩
    rw [hl] at h
    cases hf : ts.foldlM parseStep ⟨⟨[], []⟩, [], 0⟩ with
    | none => simp only [Option.bind_eq_bind, Option.bind_some, hf] at h; cases h
    | some q =>
      have hq := parse_n hf
      simp only [Option.bind_eq_bind, Option.bind_some, hf] at h
      split at h
      · rename_i r n hif
        split at hif
        · simp only [Option.some.injEq, Prod.mk.injEq] at hif
          unfold Re.exec at h
          cases hr : (Re.runs u r ⟨0, text, []⟩).head? with
          | none => rw [hr] at h; cases h
          | some t =>
            rw [hr] at h
            simp only [Option.map_some, Option.some.injEq] at h
            rw [← h, List.length_cons, List.length_map, List.length_range, ← hif.2, hq, Nat.zero_add]
        · cases hif
      · cases h

example : lex .out "((a)b)(c)".toList = some [.open, .open, .cls (.one (.chr 'a')), .close, .cls (.one (.chr 'b')), .close, .open,
      .cls (.one (.chr 'c')), .close] ∧
    reMatch ascii "((a)b)(c)".toList "abc".toList = some [some "abc".toList, some "ab".toList, some "a".toList, some "c".toList] := by
  decide +kernel

/-! ## Classes -/

/-- What a class may list: a character, or a range of characters. -/
inductive Entry where
  | chr (c : Char)
  | range (a b : Char)
deriving DecidableEq

/-- How it is written. -/
def Entry.text : Entry → Str
  | .chr c => [c]
  | .range a b => [a, '-', b]

/-- Which characters it stands for. -/
def Entry.has : Entry → Char → Prop
  | .chr a, c => c = a
  | .range a b, c => a.toNat ≤ c.toNat ∧ c.toNat ≤ b.toNat

instance (e : Entry) (c : Char) : Decidable (e.has c) := by cases e <;> unfold Entry.has <;> infer_instance

/-- A character with no meaning of its own in a class. -/
def Usual (c : Char) : Prop := c ≠ '\\' ∧ c ≠ '[' ∧ c ≠ ']' ∧ c ≠ '-' ∧ c ≠ '^'

instance (c : Char) : Decidable (Usual c) := by unfold Usual; infer_instance

def Entry.Good : Entry → Prop
  | .chr c => Usual c
  | .range a b => Usual a ∧ Usual b ∧ a.toNat ≤ b.toNat

instance (e : Entry) : Decidable e.Good := by cases e <;> unfold Entry.Good <;> infer_instance

/-- The member of the compiled class. -/
def Entry.mem : Entry → Mem
  | .chr c => .chr c
  | .range a b => .range a b

theorem clsStep_usual {neg : Bool} {ms : List Mem} {c : Char} (h : Usual c) : clsStep neg ms c = some (.cls neg (.chr c :: ms)) := by
  unfold clsStep
  rw [if_neg h.1, if_neg h.2.1, if_neg h.2.2.2.1]

theorem lex_usual {neg : Bool} {ms : List Mem} {c : Char} (h : Usual c) (cs : Str) :
    lex (.cls neg ms) (c :: cs) = lex (.cls neg (.chr c :: ms)) cs := by
  rw [lex, if_neg h.2.2.1, clsStep_usual h]
  rfl

theorem lex_dash {neg : Bool} {ms : List Mem} {a b : Char} (h : Usual b) (hab : a.toNat ≤ b.toNat) (cs : Str) :
    lex (.cls neg (.chr a :: ms)) ('-' :: b :: cs) = lex (.cls neg (.range a b :: ms)) cs := by
  have h1 : lex (.cls neg (.chr a :: ms)) ('-' :: b :: cs) = lex (.clsDash neg ms a) (b :: cs) := by
    rw [lex, if_neg (by decide)]
    rfl
  rw [h1, lex, if_neg h.2.2.1, if_neg (by rintro (e | e); exacts [h.1 e, h.2.1 e]), if_pos hab]

theorem lex_entries {neg : Bool} {es : List Entry} (h : ∀ e ∈ es, e.Good) (ms : List Mem) (hne : ms ≠ [] ∨ es ≠ []) {p : Str} {ts : List Tok}
    (hp : lex .out p = some ts) :
    lex (.cls neg ms) (es.flatMap Entry.text ++ ']' :: p) = some (.cls (.set neg (ms.reverse ++ es.map Entry.mem)) :: ts) := by
  induction es generalizing ms with
  | nil =>
    rw [List.flatMap_nil, List.nil_append, lex, if_pos rfl, if_neg (by simpa using hne), hp]
    simp
  | cons e es ih =>
    have he := h e (List.mem_cons_self ..)
    have ih := fun ms hm => ih (fun x hx => h x (List.mem_cons_of_mem _ hx)) ms hm
    cases e with
    | chr c =>
      show lex (.cls neg ms) (c :: (es.flatMap Entry.text ++ ']' :: p)) = _
      rw [lex_usual he, ih _ (.inl (by simp))]
      simp [Entry.mem]
    | range a b =>
      show lex (.cls neg ms) (a :: '-' :: b :: (es.flatMap Entry.text ++ ']' :: p)) = _
      rw [lex_usual he.1, lex_dash he.2.1 he.2.2, ih _ (.inl (by simp))]
      simp [Entry.mem]

/-- The pattern `([…]+)` or `([^…]+)`. -/
def classText (neg : Bool) (es : List Entry) : Str :=
  '(' :: '[' :: ((if neg then ['^'] else []) ++ es.flatMap Entry.text ++ [']', '+', ')'])

theorem lex_class {neg : Bool} {es : List Entry} (h : ∀ e ∈ es, e.Good) (hne : es ≠ []) :
    lex .out (classText neg es) = some [.open, .cls (.set neg (es.map Entry.mem)), .plus, .close] := by
  have hp : lex .out ['+', ')'] = some [.plus, .close] := by decide
  have h2 := lex_entries (neg := neg) h [] (.inr hne) hp
  have key : lex .out ('[' :: ((if neg then ['^'] else []) ++ es.flatMap Entry.text ++ [']', '+', ')'])) =
      some [.cls (.set neg (es.map Entry.mem)), .plus, .close] := by
    have h3 : lex .out ('[' :: ((if neg then ['^'] else []) ++ es.flatMap Entry.text ++ [']', '+', ')'])) =
        lex (.cls neg []) (es.flatMap Entry.text ++ [']', '+', ')']) := by
      cases neg with
      | true =>
        show lex .out ('[' :: '^' :: (es.flatMap Entry.text ++ [']', '+', ')'])) = _
        rw [lex, if_neg (by decide), if_pos rfl, lex, if_pos rfl]
      | false =>
        show lex .out ('[' :: (es.flatMap Entry.text ++ [']', '+', ')'])) = _
        rw [lex, if_neg (by decide), if_pos rfl]
        cases es with
        | nil => exact absurd rfl hne
        | cons e es =>
          have he := h e (List.mem_cons_self ..)
          have : ∃ c cs, Usual c ∧ (e :: es).flatMap Entry.text ++ [']', '+', ')'] = c :: cs := by
            cases e with
            | chr c => exact ⟨c, _, he, rfl⟩
            | range a b => exact ⟨a, _, he.1, rfl⟩
          obtain ⟨c, cs, hc, e1⟩ := this
          rw [e1, lex_usual hc, lex, if_neg hc.2.2.2.2, if_neg hc.2.2.1, clsStep_usual hc]
          rfl
    rw [h3, h2]
    rfl
  exact lex_two (a := ['(']) (ts := [.open]) (by decide) key

/-- **C185** (classes).  `([…]+)` shows the longest start of the attribute that consists of the characters listed, `([^…]+)` the longest
one without any of them; nothing is shown (`*`) if it is empty. -/
theorem C185_class (u : Tables) (neg : Bool) {es : List Entry} (h : ∀ e ∈ es, e.Good) (hne : es ≠ []) (v : String) :
    groupStr (grpS u) (String.ofList (classText neg es)) v 1 =
      let start := v.toList.takeWhile (fun c => decide (∃ e ∈ es, e.has c) != neg)
      if start = [] then "*" else String.ofList start := by
  have hfun : Cls.has u (.set neg (es.map Entry.mem)) = (fun c => decide (∃ e ∈ es, e.has c) != neg) := by
    funext c
    rw [Cls.has]
    congr 1
    rw [Bool.eq_iff_iff, List.any_eq_true, decide_eq_true_iff]
    constructor
    · rintro ⟨m, hm, hc⟩
      obtain ⟨e, he, rfl⟩ := List.mem_map.1 hm
      refine ⟨e, he, ?_⟩
      cases e with
      | chr a => simpa [Entry.mem, Mem.has, Entry.has] using hc
      | range a b => simpa [Entry.mem, Mem.has, Entry.has] using hc
    · rintro ⟨e, he, hc⟩
      refine ⟨e.mem, List.mem_map.2 ⟨e, he, rfl⟩, ?_⟩
      cases e with
      | chr a => simpa [Entry.mem, Mem.has, Entry.has] using hc
      | range a b => simpa [Entry.mem, Mem.has, Entry.has] using hc
  rw [groupStr, grpS, String.toList_ofList, reMatch_class u (lex_class h hne), hfun]
  simp only
  by_cases h0 : v.toList.takeWhile (fun c => decide (∃ e ∈ es, e.has c) != neg) = []
  · rw [if_pos h0, if_pos h0]; rfl
  · rw [if_neg h0, if_neg h0]; rfl

example : (∀ e ∈ [Entry.range 'a' 'z', .range 'A' 'Z', .chr '_'], e.Good) ∧
    classText false [Entry.range 'a' 'z', .range 'A' 'Z', .chr '_'] = "([a-zA-Z_]+)".toList ∧
    groupStr (grpS ascii) "([a-zA-Z_]+)" "in_Law-2" 1 = "in_Law" ∧ groupStr (grpS ascii) "([^-]+)" "-a" 1 = "*" ∧
    classText true [.chr '/'] = "([^/]+)".toList ∧ groupStr (grpS ascii) "([^/]+)" "and/or" 1 = "and" := by decide +kernel

/-- **C185** (escapes).  The groups `(\d+)`, `(\D+)`, `(\s+)`, `(\S+)` and `(\W+)` show the longest start of digits, of other characters
than digits, of white space, of characters other than white space, and of characters that are no word characters. -/
theorem C185_escapes (u : Tables) (v : String) :
    ∀ p ∈ [("(\\d+)", fun c => u.digit c), ("(\\D+)", fun c => !u.digit c), ("(\\s+)", fun c => isSpace c), ("(\\S+)", fun c => !isSpace c),
      ("(\\W+)", fun c => !Wordy u c)],
      groupStr (grpS u) p.1 v 1 = if v.toList.takeWhile p.2 = [] then "*" else String.ofList (v.toList.takeWhile p.2) := by
  have key : ∀ (s : String) (c : Cls) (f : Char → Bool), lex .out s.toList = some [.open, .cls c, .plus, .close] → Cls.has u c = f →
      groupStr (grpS u) s v 1 = if v.toList.takeWhile f = [] then "*" else String.ofList (v.toList.takeWhile f) := by
    intro s c f hl hf
    rw [groupStr, grpS, reMatch_class u hl, hf]
    by_cases h : v.toList.takeWhile f = []
    · rw [if_pos h, if_pos h]; rfl
    · rw [if_neg h, if_neg h]; rfl
  intro p hp
  simp only [List.mem_cons, List.not_mem_nil, or_false] at hp
  rcases hp with rfl | rfl | rfl | rfl | rfl <;> simp only
  · exact key _ (.one (.digit false)) _ (by decide +kernel) (by funext c; simp [Cls.has, Mem.has])
  · exact key _ (.one (.digit true)) _ (by decide +kernel) (by funext c; simp [Cls.has, Mem.has])
  · exact key _ (.one (.space false)) _ (by decide +kernel) (by funext c; simp [Cls.has, Mem.has])
  · exact key _ (.one (.space true)) _ (by decide +kernel) (by funext c; simp [Cls.has, Mem.has])
  · exact key _ (.one (.word true)) _ (by decide +kernel) (by funext c; simp [Cls.has, Mem.has, Wordy])

example : groupStr (grpS ascii) "(\\S+)" "mother-in-law x" 1 = "mother-in-law" ∧ groupStr (grpS ascii) "(\\d+)" "12a" 1 = "12" := by
  decide +kernel

end Verif.Regex
