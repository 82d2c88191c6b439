import Verif.Vocab.Plain
import Verif.Vocab.Lemmas
import Mathlib.Data.List.TakeWhile
import Mathlib.Tactic.IntervalCases

namespace Verif.Vocab.Plain
open Verif.Py Verif.Vocab

/-- Items the plain format can carry: non-empty, not starting with white space, free of tabs and of line
boundaries. -/
def Good (s : Str) : Prop :=
  (∃ c cs, s = c :: cs ∧ isSpace c = false) ∧ '\t' ∉ s ∧ ∀ c ∈ s, isBreak c = false

instance (s : Str) : Decidable (Good s) := by
  unfold Good
  have : Decidable (∃ c cs, s = c :: cs ∧ isSpace c = false) := by
    cases s with
    | nil => exact .isFalse (by rintro ⟨c, cs, h, _⟩; cases h)
    | cons c cs =>
      by_cases h : isSpace c = false
      · exact .isTrue ⟨c, cs, rfl, h⟩
      · exact .isFalse (by rintro ⟨c', cs', h1, h2⟩; cases h1; exact h h2)
  infer_instance

theorem digitChar_toNat {d : Nat} (h : d < 10) : (digitChar d).toNat = 48 + d := by
  unfold digitChar
  interval_cases d <;> rfl

theorem parseDigits_append (acc : Nat) (xs ys : Str) :
    parseDigits acc (xs ++ ys) = (parseDigits acc xs).bind (fun a => parseDigits a ys) := by
  induction xs generalizing acc with
  | nil => rfl
  | cons c cs ih =>
    simp only [List.cons_append, parseDigits]
    split
    · exact ih _
    · rfl

theorem parseDigits_rev (ds : List Nat) (h : ∀ d ∈ ds, d < 10) :
    parseDigits 0 (ds.map digitChar).reverse = some (Nat.ofDigits 10 ds) := by
  induction ds with
  | nil => rfl
  | cons d ds ih =>
    have hd := h d (by simp)
    rw [List.map_cons, List.reverse_cons, parseDigits_append, ih (fun x hx => h x (by simp [hx]))]
    simp only [Option.bind_some, parseDigits, digitChar_toNat hd, Nat.ofDigits_cons]
    rw [if_pos (by omega)]
    congr 1
    simp; ring

/-- characters of a printed number are digits -/
theorem natStr_digits (n : Nat) : natStr n ≠ [] ∧ ∀ c ∈ natStr n, 48 ≤ c.toNat ∧ c.toNat ≤ 57 := by
  unfold natStr
  split
  · refine ⟨by simp, ?_⟩; intro c hc; simp only [List.mem_singleton] at hc; subst hc; decide
  · next h =>
    refine ⟨?_, ?_⟩
    · simpa using Nat.digits_ne_nil_iff_ne_zero.2 h
    · intro c hc
      simp only [List.mem_reverse, List.mem_map] at hc
      obtain ⟨d, hd, rfl⟩ := hc
      have : d < 10 := Nat.digits_lt_base (by norm_num) hd
      rw [digitChar_toNat this]; omega

theorem parseDigits_natStr (n : Nat) : parseDigits 0 (natStr n) = some n := by
  unfold natStr
  split
  · next h => subst h; decide
  · rw [parseDigits_rev _ (fun d hd => Nat.digits_lt_base (by norm_num) hd), Nat.ofDigits_digits]

theorem parseInt_intStr (n : Int) : parseInt (intStr n) = some n := by
  cases n with
  | ofNat n =>
    have h := natStr_digits n
    show parseInt (natStr n) = _
    cases hs : natStr n with
    | nil => exact absurd hs h.1
    | cons c cs =>
      have hc : c ≠ '-' := by
        rintro rfl
        have := h.2 '-' (by simp [hs])
        revert this; decide
      have : parseInt (c :: cs) = (parseDigits 0 (c :: cs)).map (fun n => (n : Int)) := by
        unfold parseInt
        split
        · next heq => cases heq
        · next heq => injection heq with h1 _; exact absurd h1 hc
        · rfl
      rw [this, ← hs, parseDigits_natStr]; rfl
  | negSucc n =>
    show parseInt ('-' :: natStr (n + 1)) = _
    simp only [parseInt, if_neg (natStr_digits (n + 1)).1, parseDigits_natStr]
    rfl

theorem intStr_chars (n : Int) :
    intStr n ≠ [] ∧ ∀ c ∈ intStr n, isSpace c = false ∧ isBreak c = false ∧ c ≠ '\t' := by
  have dig : ∀ c : Char, 48 ≤ c.toNat ∧ c.toNat ≤ 57 → isSpace c = false ∧ isBreak c = false ∧ c ≠ '\t' := by
    intro c hc
    refine ⟨?_, ?_, ?_⟩
    · simp only [isSpace, Bool.or_eq_false_iff, Bool.and_eq_false_iff, decide_eq_false_iff_not,
        beq_eq_false_iff_ne]
      omega
    · simp only [isBreak, Bool.or_eq_false_iff, Bool.and_eq_false_iff, decide_eq_false_iff_not,
        beq_eq_false_iff_ne]
      omega
    · rintro rfl; revert hc; decide
  cases n with
  | ofNat n => exact ⟨(natStr_digits n).1, fun c hc => dig c ((natStr_digits n).2 c hc)⟩
  | negSucc n =>
    refine ⟨by simp [intStr], ?_⟩
    intro c hc
    simp only [intStr, List.mem_cons] at hc
    rcases hc with rfl | hc
    · decide
    · exact dig c ((natStr_digits _).2 c hc)

theorem isSpace_of_isBreak {c : Char} (h : isBreak c = true) : isSpace c = true := by
  simp only [isBreak, isSpace, Bool.or_eq_true, Bool.and_eq_true, decide_eq_true_eq, beq_iff_eq] at *
  omega

/-- A text without line boundaries followed by a newline is read as one line. -/
theorem lines_row (acc body rest : Str) (h : ∀ c ∈ body, isBreak c = false) :
    lines acc (body ++ '\n' :: rest) = (acc.reverse ++ body ++ ['\n']) :: lines [] rest := by
  induction body generalizing acc with
  | nil => simp [lines, show isBreak '\n' = true by decide]
  | cons c cs ih =>
    have hc := h c (by simp)
    rw [List.cons_append, lines, hc, if_neg (by simp), ih _ (fun x hx => h x (by simp [hx]))]
    simp

theorem strip_row (k f : Str) (hk : ∃ c cs, k = c :: cs ∧ isSpace c = false) (hf : f ≠ [])
    (hs : ∀ c ∈ f, isSpace c = false) :
    strip (k ++ '\t' :: f ++ ['\n']) = k ++ '\t' :: f := by
  obtain ⟨c, cs, rfl, hc⟩ := hk
  obtain ⟨f', x, rfl⟩ : ∃ f' x, f = f' ++ [x] := ⟨f.dropLast, f.getLast hf, (List.dropLast_append_getLast hf).symm⟩
  have hx := hs x (by simp)
  unfold strip
  rw [List.cons_append, List.cons_append, List.dropWhile_cons, hc, if_neg (by simp)]
  simp [hx, show isSpace '\n' = true by decide]

theorem splitTab_ne_nil (s : Str) : splitTab s ≠ [] := by
  cases s with
  | nil => simp [splitTab]
  | cons c cs => rw [splitTab]; split; · simp
                 · split <;> simp

theorem splitTab_noTab (s : Str) (h : '\t' ∉ s) : splitTab s = [s] := by
  induction s with
  | nil => rfl
  | cons c cs ih =>
    simp only [List.mem_cons, not_or] at h
    rw [splitTab, if_neg (Ne.symm h.1), ih h.2]

theorem splitTab_append (k r : Str) (h : '\t' ∉ k) : splitTab (k ++ '\t' :: r) = k :: splitTab r := by
  induction k with
  | nil => simp [splitTab]
  | cons c cs ih =>
    simp only [List.mem_cons, not_or] at h
    rw [List.cons_append, splitTab, if_neg (Ne.symm h.1), ih h.2]

theorem loadLine_row (d : Dict Str Int) (p : Str × Int) (h : Good p.1) :
    loadLine d (row p) = .ok (d.set p.1 p.2) := by
  have hi := intStr_chars p.2
  unfold loadLine row
  rw [strip_row _ _ h.1 hi.1 (fun c hc => (hi.2 c hc).1), splitTab_append _ _ h.2.1,
    splitTab_noTab _ (fun hc => (hi.2 _ hc).2.2 rfl)]
  simp [parseInt_intStr]

theorem lines_save (ps : List (Str × Int)) (h : ∀ p ∈ ps, Good p.1) :
    lines [] (ps.map row).flatten = ps.map row := by
  induction ps with
  | nil => rfl
  | cons p ps ih =>
    have hp := h p (by simp)
    have hi := intStr_chars p.2
    rw [List.map_cons, List.flatten_cons]
    have : row p ++ (ps.map row).flatten = (p.1 ++ '\t' :: intStr p.2) ++ '\n' :: (ps.map row).flatten := by
      simp [row]
    rw [this, lines_row, ih (fun q hq => h q (by simp [hq]))]
    · simp [row]
    · intro c hc
      rcases List.mem_append.1 hc with hc | hc
      · exact hp.2.2 c hc
      · rcases List.mem_cons.1 hc with rfl | hc
        · decide
        · exact (hi.2 c hc).2.1

theorem load_rows (ps : List (Str × Int)) (h : ∀ p ∈ ps, Good p.1) (d : Dict Str Int) :
    (ps.map row).foldlM loadLine d = .ok (ps.foldl (fun d p => d.set p.1 p.2) d) := by
  induction ps generalizing d with
  | nil => rfl
  | cons p ps ih =>
    rw [List.map_cons, List.foldlM_cons, loadLine_row _ _ (h p (by simp))]
    exact ih (fun q hq => h q (by simp [hq])) _

/-- Lines have a line boundary only at their end. -/
theorem lines_break (acc s : Str) (ha : ∀ c ∈ acc, isBreak c = false) :
    ∀ l ∈ lines acc s, ∃ body tail : Str, l = body ++ tail ∧ (∀ c ∈ body, isBreak c = false) ∧
      ∀ c ∈ tail, isSpace c = true := by
  induction s generalizing acc with
  | nil =>
    intro l hl
    rw [lines] at hl
    split at hl
    · cases hl
    · simp only [List.mem_singleton] at hl
      subst hl
      exact ⟨acc.reverse, [], by simp, by simpa using ha, by simp⟩
  | cons c cs ih =>
    intro l hl
    rw [lines] at hl
    split at hl
    · next hb =>
      rcases List.mem_cons.1 hl with rfl | hl
      · exact ⟨acc.reverse, [c], by simp, by simpa using ha, by simpa using isSpace_of_isBreak hb⟩
      · exact ih [] (by simp) l hl
    · next hb =>
      refine ih (c :: acc) ?_ l hl
      intro x hx
      rcases List.mem_cons.1 hx with rfl | hx
      · simpa using hb
      · exact ha x hx

theorem mem_dropWhile {p : Char → Bool} {l : Str} {c : Char} (h : c ∈ l.dropWhile p) : c ∈ l :=
  (List.dropWhile_sublist p).subset h

/-- A stripped line has no line boundary. -/
theorem strip_noBreak (body tail : Str) (hb : ∀ c ∈ body, isBreak c = false)
    (ht : ∀ c ∈ tail, isSpace c = true) : ∀ c ∈ strip (body ++ tail), isBreak c = false := by
  intro c hc
  unfold strip at hc
  rw [List.mem_reverse] at hc
  -- the characters of `tail` are dropped from the end
  by_cases hall : ∀ x ∈ body, isSpace x = true
  · have : (body ++ tail).dropWhile isSpace = [] := by
      rw [List.dropWhile_eq_nil_iff]
      intro x hx
      rcases List.mem_append.1 hx with h | h
      · exact hall x h
      · exact ht x h
    rw [this] at hc
    simp at hc
  · have h1 : (body ++ tail).dropWhile isSpace = body.dropWhile isSpace ++ tail := by
      rw [List.dropWhile_append, if_neg]
      simp only [List.isEmpty_iff, List.dropWhile_eq_nil_iff]
      exact hall
    rw [h1, List.reverse_append, List.dropWhile_append, if_pos] at hc
    · have := mem_dropWhile hc
      rw [List.mem_reverse] at this
      exact hb c (mem_dropWhile this)
    · simp only [List.isEmpty_iff, List.dropWhile_eq_nil_iff, List.mem_reverse]
      exact ht

theorem splitTab_head (s : Str) {k : Str} {ps : List Str} (h : splitTab s = k :: ps) :
    '\t' ∉ k ∧ ∃ r, s = k ++ r ∧ (ps ≠ [] → ∃ r', r = '\t' :: r') := by
  induction s generalizing k ps with
  | nil => simp only [splitTab, List.cons.injEq] at h; obtain ⟨rfl, rfl⟩ := h; exact ⟨by simp, [], rfl, by simp⟩
  | cons c cs ih =>
    rw [splitTab] at h
    split at h
    · next hc =>
      subst hc
      simp only [List.cons.injEq] at h
      obtain ⟨rfl, rfl⟩ := h
      exact ⟨by simp, '\t' :: cs, rfl, fun _ => ⟨cs, rfl⟩⟩
    · next hc =>
      cases hq : splitTab cs with
      | nil => exact absurd hq (splitTab_ne_nil cs)
      | cons q qs =>
        rw [hq] at h
        simp only [List.cons.injEq] at h
        obtain ⟨rfl, rfl⟩ := h
        obtain ⟨h1, r, h2, h3⟩ := ih hq
        refine ⟨?_, r, by rw [h2]; rfl, h3⟩
        simp only [List.mem_cons, not_or]
        exact ⟨Ne.symm hc, h1⟩

theorem strip_head (s : Str) {c : Char} {cs : Str} (h : strip s = c :: cs) : isSpace c = false := by
  unfold strip at h
  have h2 : c :: cs <+: s.dropWhile isSpace := by
    rw [← h]
    have := List.dropWhile_suffix isSpace (l := (s.dropWhile isSpace).reverse)
    simpa using List.reverse_prefix.2 this
  obtain ⟨t, ht⟩ := h2
  have h3 : s.dropWhile isSpace ≠ [] := by rw [← ht]; simp
  have := List.head_dropWhile_not isSpace h3
  have e : (s.dropWhile isSpace).head h3 = c := by simp [← ht]
  rw [e] at this
  simpa using this

/-- Every key the reader stores is one the format can carry. -/
theorem loadLine_good {d d' : Dict Str Int} {line : Str} (h : loadLine d line = .ok d')
    (hl : ∃ body tail : Str, line = body ++ tail ∧ (∀ c ∈ body, isBreak c = false) ∧
      ∀ c ∈ tail, isSpace c = true)
    (hd : ∀ k ∈ d.keys, Good k) : ∀ k ∈ d'.keys, Good k := by
  unfold loadLine at h
  split at h
  · next k f r hs =>
    split at h
    · injection h with h
      subst h
      intro x hx
      rw [Dict.keys_set] at hx
      have hk : Good k := by
        obtain ⟨h1, r', h2, h3⟩ := splitTab_head _ hs
        obtain ⟨r'', h4⟩ := h3 (by simp)
        refine ⟨?_, h1, ?_⟩
        · cases k with
          | nil =>
            rw [h4] at h2
            have := strip_head line h2
            exact absurd this (by decide)
          | cons c cs => exact ⟨c, cs, rfl, strip_head line (by rw [h2]; rfl)⟩
        · obtain ⟨body, tail, rfl, hb, ht⟩ := hl
          intro c hc
          exact strip_noBreak body tail hb ht c (by rw [h2]; simp [hc])
      split at hx
      · exact hd x hx
      · rcases List.mem_append.1 hx with hx | hx
        · exact hd x hx
        · simp only [List.mem_singleton] at hx; subst hx; exact hk
    · cases h
  · injection h with h; subst h; exact hd

theorem load_good {text : Str} {v : Vocab Str} (h : load text = .ok v) : ∀ k ∈ v.freq.keys, Good k := by
  unfold load at h
  have key : ∀ (ls : List Str), (∀ l ∈ ls, ∃ body tail : Str, l = body ++ tail ∧
      (∀ c ∈ body, isBreak c = false) ∧ ∀ c ∈ tail, isSpace c = true) →
      ∀ d d' : Dict Str Int, ls.foldlM loadLine d = .ok d' → (∀ k ∈ d.keys, Good k) → ∀ k ∈ d'.keys, Good k := by
    intro ls
    induction ls with
    | nil => intro _ d d' h hd; injection h with h; subst h; exact hd
    | cons l ls ih =>
      intro hl d d' h hd
      rw [List.foldlM_cons] at h
      cases hq : loadLine d l with
      | error e => rw [hq] at h; cases h
      | ok d1 =>
        rw [hq] at h
        exact ih (fun x hx => hl x (by simp [hx])) d1 d' h (loadLine_good hq (hl l (by simp)) hd)
  cases hq : (lines [] text).foldlM loadLine [] with
  | error e => rw [hq] at h; cases h
  | ok d =>
    rw [hq] at h
    injection h with h
    subst h
    exact key _ (lines_break [] text (by simp)) [] d hq (by simp)

end Verif.Vocab.Plain
