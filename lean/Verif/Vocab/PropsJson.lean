import Verif.Vocab.Json
import Verif.Vocab.PlainLemmas
import Mathlib.Data.Nat.Digits.Lemmas

/-! # C167, C168: vocabularies saved as JSON -/

set_option linter.unusedSectionVars false

namespace Verif.Vocab.Json
open Verif.Py Verif.Vocab Verif.Vocab.Plain

theorem hex_two : ∀ n < 32, hex4 '0' '0' (hexDigit (n / 16)) (hexDigit (n % 16)) = some (Char.ofNat n) := by decide

theorem scan_quote_end (r : Str) : scan ('"' :: r) = some ([], r) := by
  rw [scan.eq_def]
  simp only
  rw [if_pos trivial]

theorem scan_two {e x : Char} (r : Str) (hu : e ≠ 'u') (hx : unescape e = some x) : scan ('\\' :: e :: r) = (scan r).map (push x) := by
  rw [scan.eq_def]
  simp only
  rw [if_neg (by decide), if_pos trivial, if_neg hu, hx]
  rfl

theorem scan_hex {h1 h2 h3 h4 x : Char} (r : Str) (hx : hex4 h1 h2 h3 h4 = some x) :
    scan ('\\' :: 'u' :: h1 :: h2 :: h3 :: h4 :: r) = (scan r).map (push x) := by
  rw [scan.eq_def]
  simp only
  rw [if_neg (by decide), if_pos trivial, if_pos trivial, hx]
  rfl

theorem scan_plain {c : Char} (r : Str) (h1 : c ≠ '"') (h2 : c ≠ '\\') (h3 : ¬ c.toNat < 32) : scan (c :: r) = (scan r).map (push c) := by
  rw [scan.eq_def]
  simp only
  rw [if_neg h1, if_neg h2, if_neg h3]

theorem scan_esc (c : Char) (s : Str) : scan (esc c ++ s) = (scan s).map (push c) := by
  unfold esc
  split
  · rename_i h; subst h; exact scan_two s (by decide) rfl
  split
  · rename_i h; subst h; exact scan_two s (by decide) rfl
  split
  · rename_i h; subst h; exact scan_two s (by decide) rfl
  split
  · rename_i h; subst h; exact scan_two s (by decide) rfl
  split
  · rename_i h; subst h; exact scan_two s (by decide) rfl
  have hc : Char.ofNat c.toNat = c := Char.ofNat_toNat c
  split
  · rename_i h; rw [h] at hc; subst hc; exact scan_two s (by decide) rfl
  split
  · rename_i h; rw [h] at hc; subst hc; exact scan_two s (by decide) rfl
  split
  · rename_i h
    have := hex_two _ h
    rw [hc] at this
    exact scan_hex s this
  · rename_i h1 h2 _ _ _ _ _ h8
    exact scan_plain s h1 h2 h8

theorem scan_quote (k r : Str) : scan (k.flatMap esc ++ '"' :: r) = some (k, r) := by
  induction k with
  | nil => exact scan_quote_end r
  | cons c k ih =>
    rw [List.flatMap_cons, List.append_assoc, scan_esc, ih]
    rfl

theorem natStr_head {n : Nat} (h : n ≠ 0) : ∃ c r, natStr n = c :: r ∧ c ≠ '0' ∧ isDig c = true := by
  have hd : Nat.digits 10 n ≠ [] := Nat.digits_ne_nil_iff_ne_zero.2 h
  have hlast : (Nat.digits 10 n).getLast hd ≠ 0 := Nat.getLast_digit_ne_zero 10 h
  have hlt : (Nat.digits 10 n).getLast hd < 10 := Nat.digits_lt_base (by norm_num) (List.getLast_mem hd)
  obtain ⟨ds, hds⟩ : ∃ ds, Nat.digits 10 n = ds ++ [(Nat.digits 10 n).getLast hd] := ⟨_, (List.dropLast_append_getLast hd).symm⟩
  refine ⟨digitChar ((Nat.digits 10 n).getLast hd), (ds.map digitChar).reverse, ?_, ?_, ?_⟩
  · unfold natStr
    rw [if_neg h]
    conv_lhs => rw [hds]
    rw [List.map_append, List.reverse_append]
    rfl
  · intro e
    have := congrArg Char.toNat e
    rw [digitChar_toNat hlt] at this
    have h0 : ('0' : Char).toNat = 48 := rfl
    omega
  · unfold isDig
    rw [digitChar_toNat hlt]
    simp
    omega

/-- What may follow a number so that it ends there. -/
def Stops (r : Str) : Prop := ∃ c r', r = c :: r' ∧ isDig c = false ∧ c ≠ '.' ∧ c ≠ 'e' ∧ c ≠ 'E'

theorem floatTail_stops {r : Str} (h : Stops r) : floatTail r = false := by
  obtain ⟨c, r', rfl, _, h1, h2, h3⟩ := h
  simp [floatTail, h1, h2, h3]

theorem scanNat_natStr (n : Nat) {r : Str} (h : Stops r) : scanNat (natStr n ++ r) = some (n, r) := by
  by_cases h0 : n = 0
  · subst h0; rfl
  · obtain ⟨c, t, e, h1, h2⟩ := natStr_head h0
    have hdig : ∀ x ∈ natStr n, isDig x = true := by
      intro x hx
      have := (natStr_digits n).2 x hx
      simp [isDig, this]
    obtain ⟨x, r', rfl, hx, _⟩ := h
    have ht : (natStr n ++ x :: r').takeWhile isDig = natStr n := by
      rw [List.takeWhile_append_of_pos hdig, List.takeWhile_cons_of_neg (by simp [hx]), List.append_nil]
    have hd : (natStr n ++ x :: r').dropWhile isDig = x :: r' := by
      rw [List.dropWhile_append_of_pos hdig, List.dropWhile_cons_of_neg (by simp [hx])]
    unfold scanNat
    rw [ht, hd, parseDigits_natStr]
    rw [e]
    simp only [List.cons_append]
    rw [if_neg h1, if_pos h2]
    rfl

theorem isDig_minus : isDig '-' = false := rfl

theorem scanInt_intStr (v : Int) {r : Str} (h : Stops r) : scanInt (intStr v ++ r) = some (v, r) := by
  have key : signed (intStr v ++ r) = some (v, r) := by
    cases v with
    | ofNat n =>
      have hne := (natStr_digits n).1
      have hdig : ∀ x ∈ natStr n, isDig x = true := by
        intro x hx
        have := (natStr_digits n).2 x hx
        simp [isDig, this]
      have hs := scanNat_natStr n h
      show signed (natStr n ++ r) = _
      cases hn : natStr n with
      | nil => exact absurd hn hne
      | cons c t =>
        rw [hn] at hs
        unfold signed
        simp only [List.cons_append]
        have hc : c ≠ '-' := by
          rintro rfl
          have := hdig '-' (by rw [hn]; simp)
          rw [isDig_minus] at this
          exact absurd this (by decide)
        rw [if_neg hc]
        rw [List.cons_append] at hs
        rw [hs]
        rfl
    | negSucc n =>
      show signed ('-' :: (natStr (n + 1) ++ r)) = _
      unfold signed
      simp only
      rw [if_pos trivial, scanNat_natStr _ h]
      rfl
  unfold scanInt
  rw [key]
  simp only
  rw [floatTail_stops h]
  rfl

theorem ws_cons {c : Char} {r : Str} (h : isWs c = false) : ws (c :: r) = c :: r := by
  unfold ws
  rw [List.dropWhile_cons_of_neg (by simp [h])]

theorem intStr_ws (v : Int) (r : Str) : ws (intStr v ++ r) = intStr v ++ r := by
  obtain ⟨c, t, e, hc⟩ : ∃ c t, intStr v = c :: t ∧ isWs c = false := by
    cases v with
    | ofNat n =>
      have hne := (natStr_digits n).1
      cases hn : natStr n with
      | nil => exact absurd hn hne
      | cons c t =>
        refine ⟨c, t, hn, ?_⟩
        have := (natStr_digits n).2 c (by rw [hn]; simp)
        cases hb : isWs c with
        | false => rfl
        | true =>
          simp only [isWs, Bool.or_eq_true, decide_eq_true_eq] at hb
          rcases hb with ((rfl | rfl) | rfl) | rfl
          · exact absurd this.1 (by decide)
          · exact absurd this.1 (by decide)
          · exact absurd this.1 (by decide)
          · exact absurd this.1 (by decide)
    | negSucc n => exact ⟨'-', natStr (n + 1), rfl, rfl⟩
  rw [e, List.cons_append, ws_cons hc]

theorem member_item (p : Str × Int) {r : Str} (h : Stops r) (t : Str) (ht : ∀ c ∈ t, isWs c = true) :
    member (t ++ item p ++ r) = some (p, ws r) := by
  have h1 : ws (t ++ item p ++ r) = '"' :: (p.1.flatMap esc ++ '"' :: ':' :: ' ' :: (intStr p.2 ++ r)) := by
    unfold item quote ws
    rw [List.append_assoc, List.dropWhile_append_of_pos ht]
    simp only [List.cons_append, List.nil_append, List.append_assoc]
    rfl
  unfold member
  rw [h1]
  simp only
  rw [if_pos trivial, scan_quote]
  simp only
  rw [ws_cons (by decide)]
  simp only
  rw [if_pos trivial]
  have h2 : ws (' ' :: (intStr p.2 ++ r)) = intStr p.2 ++ r := by
    have : ws (' ' :: (intStr p.2 ++ r)) = ws (intStr p.2 ++ r) := rfl
    rw [this, intStr_ws]
  rw [h2, scanInt_intStr _ h]
  rfl

theorem members_items (ps : List (Str × Int)) : ∀ (n : Nat) (p : Str × Int) (t : Str) (d : Dict Str Int) (r : Str),
    (∀ c ∈ t, isWs c = true) → ps.length < n →
    members n d (t ++ item p ++ (ps.flatMap nextItem ++ '\n' :: '}' :: r)) =
      some ((p :: ps).foldl (fun d p => d.set p.1 p.2) d, r) := by
  induction ps with
  | nil =>
    intro n p t d r ht hn
    cases n with
    | zero => simp at hn
    | succ n =>
      rw [List.flatMap_nil, List.nil_append, members, member_item p ⟨'\n', _, rfl, by decide, by decide, by decide, by decide⟩ t ht]
      rfl
  | cons q ps ih =>
    intro n p t d r ht hn
    cases n with
    | zero => simp at hn
    | succ n =>
      have e : (q :: ps).flatMap nextItem ++ '\n' :: '}' :: r = ',' :: (['\n'] ++ item q ++ (ps.flatMap nextItem ++ '\n' :: '}' :: r)) := by
        rw [List.flatMap_cons]
        simp only [nextItem, List.append_assoc, List.cons_append, List.nil_append]
      rw [e, members, member_item p ⟨',', _, rfl, by decide, by decide, by decide, by decide⟩ t ht, ws_cons (by decide)]
      simp only
      rw [if_pos trivial, ih n q ['\n'] _ r (by simp [isWs]) (by simp at hn; omega)]
      rfl

theorem length_flatMap_ge (ps : List (Str × Int)) : ps.length ≤ (ps.flatMap nextItem).length := by
  induction ps with
  | nil => simp
  | cons p ps ih =>
    rw [List.flatMap_cons, List.length_append, List.length_cons]
    have : 1 ≤ (nextItem p).length := by simp [nextItem]
    omega

theorem set_new {d : Dict Str Int} {p : Str × Int} (h : p.1 ∉ Dict.keys d) : Dict.set d p.1 p.2 = d ++ [p] := by
  induction d with
  | nil => rfl
  | cons q d ih =>
    simp only [Dict.keys, List.map_cons, List.mem_cons, not_or] at h
    rw [Dict.set.eq_def]
    simp only
    rw [if_neg (fun e => h.1 e.symm), ih h.2]
    rfl

theorem foldl_set_self {d e : Dict Str Int} (h : (Dict.keys e ++ Dict.keys d).Nodup) :
    d.foldl (fun d p => Dict.set d p.1 p.2) e = e ++ d := by
  induction d generalizing e with
  | nil => simp
  | cons p d ih =>
    have hp : p.1 ∉ Dict.keys e := by
      intro hm
      rw [List.nodup_append] at h
      exact h.2.2 _ hm p.1 (by simp [Dict.keys]) rfl
    rw [List.foldl_cons, set_new hp, ih]
    · simp
    · simpa [Dict.keys] using h

/-- The text of a dict is read as this dict, with nothing left. -/
theorem object_dump {d : Dict Str Int} (h : d.WF) : object (dump d) = some (d, []) := by
  cases d with
  | nil => rfl
  | cons p ps =>
    have e : dump (p :: ps) = '{' :: (['\n'] ++ item p ++ (ps.flatMap nextItem ++ '\n' :: '}' :: [])) := by
      simp only [dump, List.append_assoc, List.cons_append, List.nil_append]
    rw [e, object, ws_cons (by decide)]
    simp only
    rw [if_pos trivial]
    have hw : ws (['\n'] ++ item p ++ (ps.flatMap nextItem ++ ['\n', '}'])) =
        '"' :: (p.1.flatMap esc ++ '"' :: ':' :: ' ' :: (intStr p.2 ++ (ps.flatMap nextItem ++ ['\n', '}']))) := by
      unfold item quote ws
      simp only [List.cons_append, List.nil_append, List.append_assoc]
      rfl
    rw [hw]
    simp only
    rw [if_neg (by decide), members_items ps _ p ['\n'] [] [] (by simp [isWs]) (by
      have := length_flatMap_ge ps
      simp only [List.length_append, List.length_cons, List.length_nil]
      omega), foldl_set_self (by simpa [Dict.WF] using h)]
    rfl

/-! ## More text behind -/

theorem scan_append (q : Str) : ∀ (n : Nat) (s : Str), s.length ≤ n → ∀ k r, scan s = some (k, r) → scan (s ++ q) = some (k, r ++ q) := by
  intro n
  induction n with
  | zero =>
    intro s hs k r h
    obtain rfl : s = [] := by simpa using hs
    rw [scan.eq_def] at h
    exact (nomatch h)
  | succ n ih =>
    intro s hs k r h
    cases s with
    | nil => rw [scan.eq_def] at h; exact (nomatch h)
    | cons c s =>
      have hl : s.length ≤ n := by simpa using hs
      rw [scan.eq_def] at h
      rw [List.cons_append, scan.eq_def]
      simp only at h ⊢
      have step : ∀ (x : Char) (t : Str), t.length ≤ n → (scan t).map (push x) = some (k, r) →
          (scan (t ++ q)).map (push x) = some (k, r ++ q) := by
        intro x t ht h
        cases hsc : scan t with
        | none => rw [hsc] at h; exact (nomatch h)
        | some p =>
          rw [hsc] at h
          rw [ih t ht p.1 p.2 hsc]
          obtain rfl := Option.some.inj h |> congrArg Prod.fst
          obtain rfl := Option.some.inj h |> congrArg Prod.snd
          rfl
      by_cases h1 : c = '"'
      · rw [if_pos h1] at h ⊢
        simp only [Option.some.injEq, Prod.mk.injEq] at h ⊢
        exact ⟨h.1, by rw [h.2]⟩
      rw [if_neg h1] at h ⊢
      by_cases h2 : c = '\\'
      · rw [if_pos h2] at h ⊢
        cases s with
        | nil => exact (nomatch h)
        | cons e s =>
          simp only [List.cons_append] at h ⊢
          by_cases h3 : e = 'u'
          · rw [if_pos h3] at h ⊢
            match s, hl, h with
            | a :: b :: c' :: d :: s, hl, h =>
              simp only [List.cons_append] at h ⊢
              cases hx : hex4 a b c' d with
              | none => rw [hx] at h; exact (nomatch h)
              | some x =>
                rw [hx] at h
                exact step x s (by simp only [List.length_cons] at hl; omega) h
            | [], _, h => exact (nomatch h)
            | [_], _, h => exact (nomatch h)
            | [_, _], _, h => exact (nomatch h)
            | [_, _, _], _, h => exact (nomatch h)
          · rw [if_neg h3] at h ⊢
            cases hx : unescape e with
            | none => rw [hx] at h; exact (nomatch h)
            | some x =>
              rw [hx] at h
              exact step x s (by simp only [List.length_cons] at hl; omega) h
      rw [if_neg h2] at h ⊢
      by_cases h3 : c.toNat < 32
      · rw [if_pos h3] at h; exact (nomatch h)
      rw [if_neg h3] at h ⊢
      exact step c s hl h

theorem ws_append {s r : Str} {c : Char} (q : Str) (h : ws s = c :: r) : ws (s ++ q) = c :: (r ++ q) := by
  unfold ws at h ⊢
  induction s with
  | nil => exact (nomatch h)
  | cons x s ih =>
    rw [List.cons_append]
    cases hx : isWs x with
    | true =>
      rw [List.dropWhile_cons_of_pos hx] at h ⊢
      exact ih h
    | false =>
      rw [List.dropWhile_cons_of_neg (by simp [hx])] at h ⊢
      obtain ⟨rfl, rfl⟩ := List.cons.inj h
      rfl

theorem dig_append {s r : Str} {c : Char} (q : Str) (h : s.dropWhile isDig = c :: r) :
    (s ++ q).dropWhile isDig = c :: (r ++ q) ∧ (s ++ q).takeWhile isDig = s.takeWhile isDig := by
  induction s with
  | nil => exact (nomatch h)
  | cons x s ih =>
    rw [List.cons_append]
    cases hx : isDig x with
    | true =>
      rw [List.dropWhile_cons_of_pos hx] at h ⊢
      rw [List.takeWhile_cons_of_pos hx, List.takeWhile_cons_of_pos hx]
      exact ⟨(ih h).1, by rw [(ih h).2]⟩
    | false =>
      rw [List.dropWhile_cons_of_neg (by simp [hx])] at h ⊢
      rw [List.takeWhile_cons_of_neg (by simp [hx]), List.takeWhile_cons_of_neg (by simp [hx])]
      obtain ⟨rfl, rfl⟩ := List.cons.inj h
      exact ⟨rfl, rfl⟩

theorem scanNat_append {s r : Str} {c : Char} {n : Nat} (q : Str) (h : scanNat s = some (n, c :: r)) :
    scanNat (s ++ q) = some (n, c :: (r ++ q)) := by
  unfold scanNat at h ⊢
  cases s with
  | nil => exact (nomatch h)
  | cons x s =>
    simp only [List.cons_append] at h ⊢
    by_cases h1 : x = '0'
    · rw [if_pos h1] at h ⊢
      simp only [Option.some.injEq, Prod.mk.injEq] at h ⊢
      exact ⟨h.1, by rw [h.2]; rfl⟩
    rw [if_neg h1] at h ⊢
    by_cases h2 : isDig x = true
    · rw [if_pos h2] at h ⊢
      cases hp : parseDigits 0 ((x :: s).takeWhile isDig) with
      | none => rw [hp] at h; exact (nomatch h)
      | some m =>
        rw [hp] at h
        simp only [Option.map_some, Option.some.injEq, Prod.mk.injEq] at h
        obtain ⟨e1, e2⟩ := dig_append q h.2
        rw [List.cons_append] at e1 e2
        rw [e2, hp, e1, h.1]
        rfl
    · rw [if_neg h2] at h; exact (nomatch h)

theorem scanInt_append {s r : Str} {c : Char} {v : Int} (q : Str) (h : scanInt s = some (v, c :: r)) :
    scanInt (s ++ q) = some (v, c :: (r ++ q)) := by
  have key : ∀ {s r : Str} {c : Char} {v : Int}, signed s = some (v, c :: r) → signed (s ++ q) = some (v, c :: (r ++ q)) := by
    intro s r c v h
    unfold signed at h ⊢
    cases s with
    | nil => exact (nomatch h)
    | cons x s =>
      simp only [List.cons_append] at h ⊢
      by_cases h1 : x = '-'
      · rw [if_pos h1] at h ⊢
        cases hn : scanNat s with
        | none => rw [hn] at h; exact (nomatch h)
        | some p =>
          obtain ⟨n, t⟩ := p
          rw [hn] at h
          simp only [Option.map_some, Option.some.injEq, Prod.mk.injEq] at h
          obtain ⟨h2, rfl⟩ := h
          rw [scanNat_append q hn, ← h2]
          rfl
      · rw [if_neg h1] at h ⊢
        cases hn : scanNat (x :: s) with
        | none => rw [hn] at h; exact (nomatch h)
        | some p =>
          obtain ⟨n, t⟩ := p
          rw [hn] at h
          simp only [Option.map_some, Option.some.injEq, Prod.mk.injEq] at h
          obtain ⟨h2, rfl⟩ := h
          have := scanNat_append q hn
          rw [List.cons_append] at this
          rw [this, ← h2]
          rfl
  unfold scanInt at h ⊢
  cases hs : signed s with
  | none => rw [hs] at h; exact (nomatch h)
  | some p =>
    obtain ⟨n, t⟩ := p
    rw [hs] at h
    simp only at h
    by_cases hf : floatTail t = true
    · rw [if_pos hf] at h; exact (nomatch h)
    rw [if_neg hf] at h
    obtain ⟨rfl, rfl⟩ := Prod.mk.inj (Option.some.inj h)
    rw [key hs]
    simp only
    exact if_neg hf

theorem member_append {s r : Str} {c : Char} {p : Str × Int} (q : Str) (h : member s = some (p, c :: r)) :
    member (s ++ q) = some (p, c :: (r ++ q)) := by
  unfold member at h ⊢
  cases h1 : ws s with
  | nil => rw [h1] at h; exact (nomatch h)
  | cons x t =>
    rw [h1] at h
    rw [ws_append q h1]
    simp only at h ⊢
    by_cases hx : x = '"'
    · rw [if_pos hx] at h ⊢
      cases h2 : scan t with
      | none => rw [h2] at h; exact (nomatch h)
      | some kr =>
        obtain ⟨k, r1⟩ := kr
        rw [h2] at h
        rw [scan_append q _ t le_rfl _ _ h2]
        simp only at h ⊢
        cases h3 : ws r1 with
        | nil => rw [h3] at h; exact (nomatch h)
        | cons y r2 =>
          rw [h3] at h
          rw [ws_append q h3]
          simp only at h ⊢
          by_cases hy : y = ':'
          · rw [if_pos hy] at h ⊢
            cases h4 : scanInt (ws r2) with
            | none => rw [h4] at h; exact (nomatch h)
            | some vr =>
              obtain ⟨v, r3⟩ := vr
              rw [h4] at h
              simp only [Option.map_some, Option.some.injEq, Prod.mk.injEq] at h
              obtain ⟨rfl, h6⟩ := h
              cases h5 : ws r2 with
              | nil => rw [h5] at h4; exact (nomatch h4)
              | cons z r2' =>
                rw [ws_append q h5]
                rw [h5] at h4
                cases h7 : r3 with
                | nil => rw [h7] at h6; exact (nomatch h6)
                | cons w r3' =>
                  rw [h7] at h4 h6
                  have := scanInt_append q h4
                  rw [List.cons_append] at this
                  rw [this]
                  have := ws_append q h6
                  rw [List.cons_append] at this
                  simp only [Option.map_some, this]
          · rw [if_neg hy] at h; exact (nomatch h)
    · rw [if_neg hx] at h; exact (nomatch h)

theorem members_append (q : Str) : ∀ (n m : Nat) (d e : Dict Str Int) (s r : Str), n ≤ m → members n d s = some (e, r) →
    members m d (s ++ q) = some (e, r ++ q) := by
  intro n
  induction n with
  | zero => intro m d e s r _ h; exact (nomatch h)
  | succ n ih =>
    intro m d e s r hm h
    cases m with
    | zero => omega
    | succ m =>
      rw [members] at h ⊢
      cases h1 : member s with
      | none => rw [h1] at h; exact (nomatch h)
      | some pr =>
        obtain ⟨p, t⟩ := pr
        cases t with
        | nil => rw [h1] at h; exact (nomatch h)
        | cons c t =>
          rw [h1] at h
          rw [member_append q h1]
          simp only at h ⊢
          by_cases hc : c = ','
          · rw [if_pos hc] at h ⊢
            exact ih m _ e t r (by omega) h
          rw [if_neg hc] at h ⊢
          by_cases hc2 : c = '}'
          · rw [if_pos hc2] at h ⊢
            simp only [Option.some.injEq, Prod.mk.injEq] at h ⊢
            exact ⟨h.1, by rw [h.2]⟩
          · rw [if_neg hc2] at h; exact (nomatch h)

theorem object_append (q : Str) {d : Dict Str Int} {s r : Str} (h : object s = some (d, r)) : object (s ++ q) = some (d, r ++ q) := by
  unfold object at h ⊢
  cases h1 : ws s with
  | nil => rw [h1] at h; exact (nomatch h)
  | cons x t =>
    rw [h1] at h
    rw [ws_append q h1]
    simp only at h ⊢
    by_cases hx : x = '{'
    · rw [if_pos hx] at h ⊢
      cases h2 : ws t with
      | nil => rw [h2] at h; exact (nomatch h)
      | cons y u =>
        rw [h2] at h
        rw [ws_append q h2]
        simp only at h ⊢
        by_cases hy : y = '}'
        · rw [if_pos hy] at h ⊢
          simp only [Option.some.injEq, Prod.mk.injEq] at h ⊢
          exact ⟨h.1, by rw [h.2]⟩
        · rw [if_neg hy] at h ⊢
          exact members_append q _ _ _ _ _ _ (by simp) h
    · rw [if_neg hx] at h; exact (nomatch h)

/-! ## The claims -/

/-- **C167.** A vocabulary that was saved in the default format is loaded with the same items, frequencies and order, whatever the
characters of the items are, if the same encoding is used; saving fails only if the encoding cannot write the text, and then with a
`ValueError` (`UnicodeEncodeError`). -/
theorem C167_json {β : Type} (c : Codec β) (hc : ∀ t b, c.encode t = some b → c.decode b = some t) (v : Vocab Str) (hv : v.freq.WF) :
    ((∃ b, save c v = .ok b) ↔ (c.encode (dump v.freq)).isSome) ∧
    (∀ b, save c v = .ok b → ∃ w, load c b = .ok w ∧ w.freq = v.freq) ∧
    (c.encode (dump v.freq) = none → save c v = .error .valueError) := by
  unfold save
  cases he : c.encode (dump v.freq) with
  | none => exact ⟨by simp, fun b h => (nomatch h), fun _ => rfl⟩
  | some b =>
    refine ⟨by simp, ?_, fun h => (nomatch h)⟩
    intro b' h
    obtain rfl := Except.ok.inj h
    refine ⟨mk' v.freq, ?_, rfl⟩
    unfold load
    rw [hc _ _ he]
    simp only
    unfold parse
    have hh : (dump v.freq).head? ≠ some (Char.ofNat 0xfeff) := by
      cases v.freq with
      | nil => decide
      | cons p ps => simp only [dump, List.cons_append, List.head?_cons]; decide
    rw [if_neg hh, object_dump hv]
    rfl

/-- An encoding for the example: the characters themselves. -/
def plainCodec : Codec Str := ⟨some, some⟩

example : ∃ b w, save plainCodec (mk' [(['a', '"', '\n'], 3), ([], -20)]) = .ok b ∧ load plainCodec b = .ok w ∧
    w.freq = [(['a', '"', '\n'], 3), ([], -20)] := by
  obtain ⟨h1, h2, _⟩ := C167_json plainCodec (fun t b h => by cases (Option.some.inj h : t = b); rfl) (mk' [(['a', '"', '\n'], 3), ([], -20)])
    (by unfold Dict.WF; decide)
  obtain ⟨b, hb⟩ := h1.2 rfl
  obtain ⟨w, hw⟩ := h2 b hb
  exact ⟨b, w, hb, hw⟩

/-- **C168**, partial: a file in the default format of which the end is missing is never loaded.  False for the plain format:
`C168_false_plain`. -/
theorem C168_partial {β : Type} (c : Codec β) (v : Vocab Str) (hv : v.freq.WF) (b : β) (p : Str) (hb : c.decode b = some p)
    (hp : p <+: dump v.freq) (hne : p ≠ dump v.freq) : load c b = .error .valueError := by
  obtain ⟨q, hq⟩ := hp
  have hq0 : q ≠ [] := by rintro rfl; rw [List.append_nil] at hq; exact hne hq
  unfold load
  rw [hb]
  simp only
  unfold parse
  split
  · rfl
  · cases ho : object p with
    | none => rfl
    | some dr =>
      obtain ⟨d, r⟩ := dr
      have h1 := object_append q ho
      rw [hq, object_dump hv] at h1
      have h2 := (Prod.mk.inj (Option.some.inj h1)).2
      exact absurd (List.append_eq_nil_iff.1 h2.symm).2 hq0

example : load plainCodec ((dump [(['a'], 3)]).dropLast) = .error .valueError :=
  C168_partial plainCodec (mk' [(['a'], 3)]) (by unfold Dict.WF; decide) _ _ rfl (List.dropLast_prefix _) (by decide)

/-- **C168 is false** for the plain format: a file without its end is loaded, with other frequencies. -/
theorem C168_false_plain : ∃ (v w : Vocab Str) (p : Str), v.freq.WF ∧ p <+: Plain.save v ∧ Plain.load p = .ok w ∧
    w.freq = [(['a'], 1)] ∧ v.freq = [(['a'], 12)] :=
  ⟨mk' [(['a'], 12)], mk' [(['a'], 1)], ['a', '\t', '1'], by unfold Dict.WF; decide, ⟨['2', '\n'], by decide⟩, by decide, rfl, rfl⟩

end Verif.Vocab.Json
