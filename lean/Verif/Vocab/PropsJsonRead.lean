import Verif.Vocab.PropsJson

/-!
# C172: a vocabulary file in JSON written by another program is read as JSON says
-/

namespace Verif.Vocab.Json
open Verif.Py Verif.Vocab Verif.Vocab.Plain

/-! ### Specification: the grammar of JSON for objects of integers -/

/-- White space of JSON. -/
def Blank (w : Str) : Prop := ∀ c ∈ w, c = ' ' ∨ c = '\t' ∨ c = '\n' ∨ c = '\r'

/-- The digit `a` has the value `n`. -/
def HexIs (a : Char) (n : Nat) : Prop :=
  ['0', '1', '2', '3', '4', '5', '6', '7', '8', '9', 'a', 'b', 'c', 'd', 'e', 'f'][n]? = some a ∨
  ['0', '1', '2', '3', '4', '5', '6', '7', '8', '9', 'A', 'B', 'C', 'D', 'E', 'F'][n]? = some a

/-- The ways to write a character in a JSON string. -/
inductive Spell : Char → Str → Prop where
  | plain {c : Char} : c ≠ '"' → c ≠ '\\' → 32 ≤ c.toNat → Spell c [c]
  | short {c e : Char} : (e, c) ∈ [('"', '"'), ('\\', '\\'), ('/', '/'), ('b', Char.ofNat 8), ('f', Char.ofNat 12), ('n', '\n'),
      ('r', '\r'), ('t', '\t')] → Spell c ['\\', e]
  | hex {c a1 a2 a3 a4 : Char} {n1 n2 n3 n4 : Nat} : HexIs a1 n1 → HexIs a2 n2 → HexIs a3 n3 → HexIs a4 n4 →
      c.toNat = n1 * 4096 + n2 * 256 + n3 * 16 + n4 → Spell c ['\\', 'u', a1, a2, a3, a4]

/-- A string and a way to write it. -/
def Spelled (k t : Str) : Prop := ∃ parts : List Str, List.Forall₂ Spell k parts ∧ t = parts.flatten

/-- The ways to write an integer: as Python does, and zero with a minus. -/
def NumText (v : Int) (t : Str) : Prop := t = intStr v ∨ (v = 0 ∧ t = ['-', '0'])

/-- A member of an object as written: the blanks before the name, the name, the blanks before and after the colon, the number, the
blanks after it. -/
structure Written where
  key : Str
  value : Int
  before : Str
  spelled : Str
  colonL : Str
  colonR : Str
  number : Str
  after : Str

/-- The parts are what they should be. -/
structure Written.Good (m : Written) : Prop where
  before : Blank m.before
  spelled : Spelled m.key m.spelled
  colonL : Blank m.colonL
  colonR : Blank m.colonR
  number : NumText m.value m.number
  after : Blank m.after

/-- The text of a member. -/
def Written.text (m : Written) : Str :=
  m.before ++ ('"' :: (m.spelled ++ ('"' :: (m.colonL ++ (':' :: (m.colonR ++ (m.number ++ m.after)))))))

/-- The text of an object: members with commas between them, in braces, with blanks around. -/
def objectText (pre : Str) (m : Written) (ms : List Written) (post : Str) : Str :=
  pre ++ ('{' :: (m.text ++ (ms.flatMap (fun m => ',' :: m.text) ++ ('}' :: post))))

/-! ### Lemmas -/

theorem blank_ws {w : Str} (h : Blank w) : ∀ c ∈ w, isWs c = true := by
  intro c hc
  rcases h c hc with rfl | rfl | rfl | rfl <;> rfl

theorem ws_blank {w r : Str} (h : Blank w) : ws (w ++ r) = ws r := by
  unfold ws
  rw [List.dropWhile_append_of_pos (blank_ws h)]

theorem hexVal_is {a : Char} {n : Nat} (h : HexIs a n) : hexVal a = some n ∧ n < 16 := by
  have hn : n < 16 := by
    rcases h with h | h
    · exact (List.getElem?_eq_some_iff.1 h).1
    · exact (List.getElem?_eq_some_iff.1 h).1
  refine ⟨?_, hn⟩
  rcases h with h | h <;> interval_cases n <;> cases h <;> rfl

theorem hex4_is {c a1 a2 a3 a4 : Char} {n1 n2 n3 n4 : Nat} (h1 : HexIs a1 n1) (h2 : HexIs a2 n2) (h3 : HexIs a3 n3) (h4 : HexIs a4 n4)
    (h : c.toNat = n1 * 4096 + n2 * 256 + n3 * 16 + n4) : hex4 a1 a2 a3 a4 = some c := by
  unfold hex4
  rw [(hexVal_is h1).1, (hexVal_is h2).1, (hexVal_is h3).1, (hexVal_is h4).1]
  simp only
  have e : ((n1 * 16 + n2) * 16 + n3) * 16 + n4 = c.toNat := by omega
  rw [e, if_neg, Char.ofNat_toNat]
  have := c.valid
  rcases this with h | h
  · have : c.toNat < 0xd800 := h
    omega
  · have : 0xdfff < c.toNat := h.1
    omega

theorem scan_spell {c : Char} {t : Str} (h : Spell c t) (s : Str) : scan (t ++ s) = (scan s).map (push c) := by
  cases h with
  | plain h1 h2 h3 => exact scan_plain s h1 h2 (by omega)
  | short h =>
    simp only [List.mem_cons, Prod.mk.injEq, List.not_mem_nil, or_false] at h
    rcases h with ⟨rfl, rfl⟩ | ⟨rfl, rfl⟩ | ⟨rfl, rfl⟩ | ⟨rfl, rfl⟩ | ⟨rfl, rfl⟩ | ⟨rfl, rfl⟩ | ⟨rfl, rfl⟩ | ⟨rfl, rfl⟩ <;>
      exact scan_two s (by decide) rfl
  | hex h1 h2 h3 h4 h => exact scan_hex s (hex4_is h1 h2 h3 h4 h)

theorem scan_spelled {k t : Str} (h : Spelled k t) (r : Str) : scan (t ++ '"' :: r) = some (k, r) := by
  obtain ⟨parts, h, rfl⟩ := h
  induction h with
  | nil => exact scan_quote_end r
  | cons h _ ih =>
    rw [List.flatten_cons, List.append_assoc, scan_spell h, ih]
    rfl

theorem num_ws {v : Int} {t : Str} (h : NumText v t) (r : Str) : ws (t ++ r) = t ++ r := by
  rcases h with rfl | ⟨_, rfl⟩
  · exact intStr_ws v r
  · rfl

theorem scanInt_num {v : Int} {t r : Str} (h : NumText v t) (hr : Stops r) : scanInt (t ++ r) = some (v, r) := by
  rcases h with rfl | ⟨rfl, rfl⟩
  · exact scanInt_intStr v hr
  · have : scanInt (['-', '0'] ++ r) = if floatTail r then none else some (0, r) := rfl
    rw [this, floatTail_stops hr]
    rfl

theorem member_written {m : Written} (h : m.Good) {x : Char} {r : Str} (hx : x = ',' ∨ x = '}') :
    member (m.text ++ x :: r) = some ((m.key, m.value), x :: r) := by
  have hst : Stops (m.after ++ x :: r) := by
    cases ha : m.after with
    | nil => rcases hx with rfl | rfl <;> exact ⟨_, _, rfl, by decide, by decide, by decide, by decide⟩
    | cons a w =>
      have := h.after a (by rw [ha]; simp)
      rcases this with rfl | rfl | rfl | rfl <;> exact ⟨_, _, rfl, by decide, by decide, by decide, by decide⟩
  have hxw : isWs x = false := by rcases hx with rfl | rfl <;> rfl
  have e : m.text ++ x :: r = m.before ++ ('"' :: (m.spelled ++ ('"' :: (m.colonL ++ (':' :: (m.colonR ++
      (m.number ++ (m.after ++ x :: r)))))))) := by
    simp only [Written.text, List.append_assoc, List.cons_append]
  unfold member
  rw [e, ws_blank h.before, ws_cons (by decide)]
  simp only
  rw [if_pos trivial, scan_spelled h.spelled]
  simp only
  rw [ws_blank h.colonL, ws_cons (by decide)]
  simp only
  rw [if_pos trivial, ws_blank h.colonR, num_ws h.number, scanInt_num h.number hst]
  simp only [Option.map_some, Option.some.injEq, Prod.mk.injEq, true_and]
  rw [ws_blank h.after, ws_cons hxw]

theorem members_written (ms : List Written) : ∀ (n : Nat) (m : Written) (d : Dict Str Int) (r : Str), m.Good → (∀ x ∈ ms, x.Good) →
    ms.length < n →
    members n d (m.text ++ (ms.flatMap (fun m => ',' :: m.text) ++ ('}' :: r))) =
      some ((m :: ms).foldl (fun d m => d.set m.key m.value) d, r) := by
  induction ms with
  | nil =>
    intro n m d r hm _ hn
    obtain ⟨n, rfl⟩ : ∃ k, n = k + 1 := ⟨n - 1, by simp at hn; omega⟩
    rw [members.eq_def]
    simp only [List.flatMap_nil, List.nil_append]
    rw [member_written hm (.inr rfl)]
    simp only
    rw [if_neg (by decide), if_pos trivial]
    rfl
  | cons m' ms ih =>
    intro n m d r hm hms hn
    obtain ⟨n, rfl⟩ : ∃ k, n = k + 1 := ⟨n - 1, by simp at hn; omega⟩
    rw [members.eq_def]
    simp only [List.flatMap_cons, List.cons_append, List.append_assoc]
    rw [member_written hm (.inl rfl)]
    simp only
    rw [if_pos trivial, ih n m' _ r (hms m' (by simp)) (fun x hx => hms x (by simp [hx])) (by simp at hn; omega)]
    rfl

theorem object_written {pre : Str} (hp : Blank pre) {m : Written} (hm : m.Good) {ms : List Written} (hms : ∀ x ∈ ms, x.Good)
    (post : Str) : object (objectText pre m ms post) = some ((m :: ms).foldl (fun d m => Dict.set d m.key m.value) ([] : Dict Str Int), post) := by
  have hw : ∃ t, ws (m.text ++ (ms.flatMap (fun m => ',' :: m.text) ++ ('}' :: post))) = '"' :: t := by
    unfold Written.text
    rw [List.append_assoc, ws_blank hm.before, List.cons_append, ws_cons (by decide)]
    exact ⟨_, rfl⟩
  obtain ⟨t, ht⟩ := hw
  have hl : ms.length ≤ (ms.flatMap (fun m => ',' :: m.text)).length := by
    clear hms ht
    induction ms with
    | nil => simp
    | cons m' ms ih => simp only [List.flatMap_cons, List.length_append, List.length_cons]; omega
  unfold object objectText
  rw [ws_blank hp, ws_cons (by decide)]
  simp only
  rw [if_pos trivial, ht]
  simp only
  rw [if_neg (by decide)]
  refine members_written ms _ m [] post hm hms ?_
  simp only [List.length_append, List.length_cons]
  omega

theorem get?_foldl_set (ms : List Written) (k : Str) : ∀ d : Dict Str Int,
    Dict.get? (ms.foldl (fun d m => d.set m.key m.value) d) k =
      ((ms.reverse.find? (fun m => decide (m.key = k))).map Written.value).or (Dict.get? d k) := by
  induction ms with
  | nil => intro d; simp
  | cons m ms ih =>
    intro d
    rw [List.foldl_cons, ih, List.reverse_cons, List.find?_append, Option.map_or, Option.or_assoc]
    congr 1
    rw [Dict.get?_set]
    by_cases e : m.key = k
    · subst e; simp
    · simp [e]

theorem blank_all {w : Str} (h : Blank w) : ws w = [] := by
  have := ws_blank (r := []) h
  rw [List.append_nil] at this
  exact this

theorem head_objectText {pre : Str} (hp : Blank pre) (m : Written) (ms : List Written) (post : Str) :
    (objectText pre m ms post).head? ≠ some (Char.ofNat 0xfeff) := by
  unfold objectText
  cases pre with
  | nil => simp only [List.nil_append, List.head?_cons]; decide
  | cons c w =>
    rcases hp c (by simp) with rfl | rfl | rfl | rfl <;> (simp only [List.cons_append, List.head?_cons]; decide)

/-- **C172.** A file with an object of integers, however it is laid out and however the names are spelled, is loaded; the frequency of
an item is the value of the last member with its name; an object whose names are all different gives exactly its members, in order. -/
theorem C172_reader {β : Type} (c : Codec β) (b : β) (pre : Str) (m : Written) (ms : List Written) (post : Str) (hp : Blank pre)
    (hq : Blank post) (hm : ∀ x ∈ m :: ms, x.Good) (hb : c.decode b = some (objectText pre m ms post)) :
    ∃ w, load c b = .ok w ∧
      (∀ k, w.freq.get? k = (((m :: ms).reverse.find? (fun x => decide (x.key = k))).map Written.value)) ∧
      (((m :: ms).map Written.key).Nodup → w.freq = (m :: ms).map (fun x => (x.key, x.value))) := by
  unfold load
  rw [hb]
  simp only
  unfold parse
  rw [if_neg (head_objectText hp m ms post), object_written hp (hm m (by simp)) (fun x hx => hm x (by simp [hx]))]
  simp only
  rw [if_pos (blank_all hq)]
  refine ⟨_, rfl, fun k => ?_, fun hnd => ?_⟩
  · have := get?_foldl_set (m :: ms) k []
    rw [Dict.get?_nil, Option.or_none] at this
    exact this
  · have h := foldl_set_self (d := (m :: ms).map (fun x => (x.key, x.value))) (e := []) (by
      simp only [Dict.keys, List.map_nil, List.nil_append, List.map_map]
      exact hnd)
    rw [List.foldl_map, List.nil_append] at h
    exact h

/-- **C172**, an empty object is the empty vocabulary. -/
theorem C172_empty {β : Type} (c : Codec β) (b : β) (pre mid post : Str) (hp : Blank pre) (hi : Blank mid) (hq : Blank post)
    (hb : c.decode b = some (pre ++ ('{' :: (mid ++ ('}' :: post))))) : ∃ w, load c b = .ok w ∧ w.freq = [] := by
  have h1 : (pre ++ ('{' :: (mid ++ ('}' :: post)))).head? ≠ some (Char.ofNat 0xfeff) := by
    cases pre with
    | nil => simp only [List.nil_append, List.head?_cons]; decide
    | cons c w =>
      rcases hp c (by simp) with rfl | rfl | rfl | rfl <;> (simp only [List.cons_append, List.head?_cons]; decide)
  unfold load
  rw [hb]
  simp only
  unfold parse
  rw [if_neg h1]
  unfold object
  rw [ws_blank hp, ws_cons (by decide)]
  simp only
  rw [if_pos trivial, ws_blank hi, ws_cons (by decide)]
  simp only
  rw [if_pos trivial]
  simp only
  rw [if_pos (blank_all hq)]
  exact ⟨_, rfl, rfl⟩

/-- **C172**, refused files: anything but blanks after the object, and a byte order mark before it. -/
theorem C172_refused {β : Type} (c : Codec β) (b : β) (pre : Str) (m : Written) (ms : List Written) (post rest : Str) (x : Char) (hp : Blank pre)
    (hq : Blank post) (hm : ∀ x ∈ m :: ms, x.Good) (hx : ¬ Blank [x]) :
    (c.decode b = some (objectText pre m ms (post ++ x :: rest)) → load c b = .error .valueError) ∧
    (∀ t, c.decode b = some (Char.ofNat 0xfeff :: t) → load c b = .error .valueError) := by
  constructor
  · intro hb
    unfold load
    rw [hb]
    simp only
    unfold parse
    rw [if_neg (head_objectText hp m ms _), object_written hp (hm m (by simp)) (fun x hx => hm x (by simp [hx]))]
    simp only
    have hw : isWs x = false := by
      by_contra h
      apply hx
      intro y hy
      rw [List.mem_singleton] at hy
      subst hy
      simp only [isWs, Bool.not_eq_false, Bool.or_eq_true, decide_eq_true_eq] at h
      tauto
    rw [ws_blank hq, ws_cons hw, if_neg (by simp)]
    rfl
  · intro t hb
    unfold load
    rw [hb]
    simp only
    unfold parse
    rw [if_pos (List.head?_cons ..)]
    rfl

/-! ### The converse -/

theorem hexIs_of_val {a : Char} {n : Nat} (h : hexVal a = some n) : HexIs a n := by
  have e : a = Char.ofNat a.toNat := (Char.ofNat_toNat a).symm
  unfold hexVal at h
  simp only at h
  generalize a.toNat = x at h e
  subst e
  by_cases h1 : 48 ≤ x ∧ x ≤ 57
  · rw [if_pos h1] at h
    cases h
    obtain ⟨h1, h2⟩ := h1
    left
    interval_cases x <;> rfl
  · rw [if_neg h1] at h
    by_cases h2 : 97 ≤ x ∧ x ≤ 102
    · rw [if_pos h2] at h
      cases h
      obtain ⟨h1, h2⟩ := h2
      left
      interval_cases x <;> rfl
    · rw [if_neg h2] at h
      by_cases h3 : 65 ≤ x ∧ x ≤ 70
      · rw [if_pos h3] at h
        cases h
        obtain ⟨h1, h2⟩ := h3
        right
        interval_cases x <;> rfl
      · rw [if_neg h3] at h
        cases h

theorem toNat_ofNat {n : Nat} (h : n.isValidChar) : (Char.ofNat n).toNat = n := by
  unfold Char.ofNat
  rw [dif_pos h]
  rfl

theorem spell_of_hex4 {a b c d x : Char} (h : hex4 a b c d = some x) : Spell x ['\\', 'u', a, b, c, d] := by
  unfold hex4 at h
  split at h
  · rename_i n1 n2 n3 n4 h1 h2 h3 h4
    simp only at h
    split at h
    · cases h
    · rename_i hs
      cases h
      have i1 := hexIs_of_val h1
      have i2 := hexIs_of_val h2
      have i3 := hexIs_of_val h3
      have i4 := hexIs_of_val h4
      have l1 := (hexVal_is i1).2
      have l2 := (hexVal_is i2).2
      have l3 := (hexVal_is i3).2
      have l4 := (hexVal_is i4).2
      refine .hex i1 i2 i3 i4 ?_
      rw [toNat_ofNat (by unfold Nat.isValidChar; omega)]
      omega
  · cases h

theorem spell_of_unescape {e x : Char} (h : unescape e = some x) : Spell x ['\\', e] := by
  refine .short ?_
  unfold unescape at h
  repeat' split at h
  all_goals first | (cases h; done) | (cases h; subst_vars; decide)

theorem scan_sound (n : Nat) : ∀ (s k r : Str), s.length ≤ n → scan s = some (k, r) → ∃ t, Spelled k t ∧ s = t ++ '"' :: r := by
  have push : ∀ {x : Char} {p k t : Str}, Spell x p → Spelled k t → Spelled (x :: k) (p ++ t) := by
    rintro x p k t hx ⟨parts, h, rfl⟩
    exact ⟨p :: parts, .cons hx h, rfl⟩
  induction n with
  | zero =>
    intro s k r hl h
    cases s with
    | nil => cases h
    | cons c s => simp at hl
  | succ n ih =>
    intro s k r hl h
    cases s with
    | nil => cases h
    | cons c s =>
      rw [scan.eq_def] at h
      simp only at h
      simp only [List.length_cons] at hl
      split at h
      · rename_i hc
        cases h
        exact ⟨[], ⟨[], .nil, rfl⟩, by rw [hc]; rfl⟩
      · rename_i hq
        split at h
        · rename_i hc
          subst hc
          split at h
          · cases h
          · rename_i e r'
            simp only [List.length_cons] at hl
            split at h
            · rename_i he
              subst he
              split at h
              · rename_i h1 h2 h3 h4 r''
                simp only [List.length_cons] at hl
                obtain ⟨x, hx, h⟩ := Option.bind_eq_some_iff.1 h
                obtain ⟨⟨k', r1⟩, hk, h⟩ := Option.map_eq_some_iff.1 h
                cases h
                obtain ⟨t, ht, rfl⟩ := ih _ _ _ (by omega) hk
                exact ⟨_, push (spell_of_hex4 hx) ht, rfl⟩
              · cases h
            · obtain ⟨x, hx, h⟩ := Option.bind_eq_some_iff.1 h
              obtain ⟨⟨k', r1⟩, hk, h⟩ := Option.map_eq_some_iff.1 h
              cases h
              obtain ⟨t, ht, rfl⟩ := ih _ _ _ (by omega) hk
              exact ⟨_, push (spell_of_unescape hx) ht, rfl⟩
        · rename_i hb
          split at h
          · cases h
          · rename_i h32
            obtain ⟨⟨k', r1⟩, hk, h⟩ := Option.map_eq_some_iff.1 h
            cases h
            obtain ⟨t, ht, rfl⟩ := ih _ _ _ (by omega) hk
            exact ⟨_, push (.plain hq hb (by omega)) ht, rfl⟩

theorem ws_split (s : Str) : ∃ w, Blank w ∧ s = w ++ ws s := by
  refine ⟨s.takeWhile isWs, fun c hc => ?_, (List.takeWhile_append_dropWhile ..).symm⟩
  have := List.mem_takeWhile_imp hc
  simpa [isWs, or_assoc] using this

theorem natStr_of_parse {ds : Str} {n : Nat} (hne : ds ≠ []) (h0 : ds.head? ≠ some '0') (hd : ∀ c ∈ ds, isDig c = true)
    (h : parseDigits 0 ds = some n) : natStr n = ds := by
  have hmap : (ds.map (fun c => c.toNat - 48)).map digitChar = ds := by
    rw [List.map_map]
    conv_rhs => rw [← List.map_id ds]
    refine List.map_congr_left (fun c hc => ?_)
    have := hd c hc
    simp only [isDig, Bool.and_eq_true, decide_eq_true_eq] at this
    simp only [Function.comp, digitChar, id]
    rw [show 48 + (c.toNat - 48) = c.toNat by omega, Char.ofNat_toNat]
  have hlt : ∀ d ∈ (ds.map (fun c => c.toNat - 48)).reverse, d < 10 := by
    intro d hd'
    rw [List.mem_reverse, List.mem_map] at hd'
    obtain ⟨c, hc, rfl⟩ := hd'
    have := hd c hc
    simp only [isDig, Bool.and_eq_true, decide_eq_true_eq] at this
    omega
  have hp := parseDigits_rev _ hlt
  rw [List.map_reverse, List.reverse_reverse, hmap, h] at hp
  have hn := Option.some.inj hp
  have hlast : ∀ hh : (ds.map (fun c => c.toNat - 48)).reverse ≠ [], (ds.map (fun c => c.toNat - 48)).reverse.getLast hh ≠ 0 := by
    intro hh
    rw [List.getLast_reverse]
    cases ds with
    | nil => exact absurd rfl hne
    | cons c ds =>
      simp only [List.map_cons, List.head_cons]
      intro e
      have := hd c (by simp)
      simp only [isDig, Bool.and_eq_true, decide_eq_true_eq] at this
      apply h0
      rw [List.head?_cons, ← Char.ofNat_toNat c, show c.toNat = 48 by omega]
  have hdig := Nat.digits_ofDigits 10 (by norm_num) _ hlt hlast
  rw [← hn] at hdig
  unfold natStr
  rw [hdig, List.map_reverse, List.reverse_reverse, hmap, if_neg]
  rintro rfl
  rw [Nat.digits_zero] at hdig
  have := congrArg List.length hdig
  simp only [List.length_nil, List.length_reverse, List.length_map] at this
  exact hne (List.length_eq_zero_iff.1 this.symm)

theorem scanNat_sound {s r : Str} {n : Nat} (h : scanNat s = some (n, r)) : s = natStr n ++ r := by
  unfold scanNat at h
  cases s with
  | nil => cases h
  | cons c s =>
    simp only at h
    split at h
    · rename_i hc
      cases h
      rw [hc]
      rfl
    · rename_i hc
      split at h
      · rename_i hd
        obtain ⟨m, hm, h⟩ := Option.map_eq_some_iff.1 h
        cases h
        rw [natStr_of_parse (ds := (c :: s).takeWhile isDig) _ _ (fun x hx => List.mem_takeWhile_imp hx) hm,
          List.takeWhile_append_dropWhile]
        · rw [List.takeWhile_cons_of_pos hd]; simp
        · rw [List.takeWhile_cons_of_pos hd]; simpa using hc
      · cases h

theorem signed_sound {s r : Str} {v : Int} (h : signed s = some (v, r)) : ∃ t, NumText v t ∧ s = t ++ r := by
  unfold signed at h
  cases s with
  | nil => cases h
  | cons c s =>
    simp only at h
    split at h
    · rename_i hc
      obtain ⟨⟨n, r1⟩, hn, h⟩ := Option.map_eq_some_iff.1 h
      cases h
      subst hc
      rw [scanNat_sound hn]
      cases n with
      | zero => exact ⟨['-', '0'], .inr ⟨rfl, rfl⟩, rfl⟩
      | succ n => exact ⟨'-' :: natStr (n + 1), .inl rfl, rfl⟩
    · obtain ⟨⟨n, r1⟩, hn, h⟩ := Option.map_eq_some_iff.1 h
      cases h
      rw [scanNat_sound hn]
      exact ⟨natStr n, .inl rfl, rfl⟩

theorem member_sound {s r : Str} {k : Str} {v : Int} (h : member s = some ((k, v), r)) :
    ∃ m : Written, m.Good ∧ m.key = k ∧ m.value = v ∧ s = m.text ++ r := by
  unfold member at h
  obtain ⟨w1, hw1, e1⟩ := ws_split s
  cases hs : ws s with
  | nil => rw [hs] at h; cases h
  | cons c s1 =>
    rw [hs] at h e1
    simp only at h
    split at h
    · rename_i hc
      subst hc
      cases hk : scan s1 with
      | none => rw [hk] at h; cases h
      | some p =>
        obtain ⟨k', r1⟩ := p
        rw [hk] at h
        simp only at h
        obtain ⟨t, ht, rfl⟩ := scan_sound _ _ _ _ le_rfl hk
        obtain ⟨w2, hw2, e2⟩ := ws_split r1
        cases hr : ws r1 with
        | nil => rw [hr] at h; cases h
        | cons c r2 =>
          rw [hr] at h e2
          simp only at h
          split at h
          · rename_i hc
            subst hc
            obtain ⟨⟨v', r3⟩, hv, h⟩ := Option.map_eq_some_iff.1 h
            cases h
            obtain ⟨w3, hw3, e3⟩ := ws_split r2
            obtain ⟨w4, hw4, e4⟩ := ws_split r3
            unfold scanInt at hv
            cases hsg : signed (ws r2) with
            | none => rw [hsg] at hv; cases hv
            | some p =>
              rw [hsg] at hv
              simp only at hv
              split at hv
              · cases hv
              · cases hv
                obtain ⟨nt, hnt, e5⟩ := signed_sound hsg
                refine ⟨⟨k, _, w1, t, w2, w3, nt, w4⟩, ⟨hw1, ht, hw2, hw3, hnt, hw4⟩, rfl, rfl, ?_⟩
                conv_lhs => rw [e1, e2, e3, e5, e4]
                simp only [Written.text, List.append_assoc, List.cons_append]
          · cases h
    · cases h

theorem members_sound (n : Nat) : ∀ (d d' : Dict Str Int) (s r : Str), members n d s = some (d', r) →
    ∃ (m : Written) (ms : List Written), (∀ x ∈ m :: ms, x.Good) ∧ s = m.text ++ (ms.flatMap (fun m => ',' :: m.text) ++ ('}' :: r)) := by
  induction n with
  | zero => intro d d' s r h; cases h
  | succ n ih =>
    intro d d' s r h
    rw [members.eq_def] at h
    simp only at h
    cases hm : member s with
    | none => rw [hm] at h; cases h
    | some p =>
      obtain ⟨⟨k, v⟩, r1⟩ := p
      obtain ⟨m, hg, rfl, rfl, rfl⟩ := member_sound hm
      rw [hm] at h
      cases r1 with
      | nil => cases h
      | cons c r2 =>
        simp only at h
        split at h
        · rename_i hc
          subst hc
          obtain ⟨m', ms, hgs, rfl⟩ := ih _ _ _ _ h
          refine ⟨m, m' :: ms, List.forall_mem_cons.2 ⟨hg, hgs⟩, ?_⟩
          simp only [List.flatMap_cons, List.cons_append, List.append_assoc]
        · split at h
          · rename_i hc
            subst hc
            cases h
            exact ⟨m, [], by simpa using hg, rfl⟩
          · cases h

/-- **C172**, nothing else is read: a file that is loaded holds an object of integers written in one of these ways. -/
theorem C172_only {β : Type} (c : Codec β) (b : β) (w : Vocab Str) (h : load c b = .ok w) : ∃ text, c.decode b = some text ∧
    ((∃ pre mid post, Blank pre ∧ Blank mid ∧ Blank post ∧ text = pre ++ ('{' :: (mid ++ ('}' :: post)))) ∨
     (∃ pre m ms post, Blank pre ∧ Blank post ∧ (∀ x ∈ m :: ms, x.Good) ∧ text = objectText pre m ms post)) := by
  unfold load at h
  cases hd : c.decode b with
  | none => rw [hd] at h; cases h
  | some text =>
    refine ⟨text, rfl, ?_⟩
    rw [hd] at h
    simp only at h
    unfold parse at h
    split at h
    · cases h
    · unfold object at h
      obtain ⟨pre, hp, e1⟩ := ws_split text
      cases hs : ws text with
      | nil => rw [hs] at h; cases h
      | cons x s =>
        rw [hs] at h e1
        simp only at h
        by_cases hx : x = '{'
        · subst hx
          rw [if_pos rfl] at h
          obtain ⟨mid, hmid, e2⟩ := ws_split s
          cases hs2 : ws s with
          | nil => rw [hs2] at h; cases h
          | cons y s2 =>
            rw [hs2] at h e2
            simp only at h
            by_cases hy : y = '}'
            · subst hy
              rw [if_pos rfl] at h
              simp only at h
              by_cases he : ws s2 = []
              · left
                obtain ⟨post, hpost, e3⟩ := ws_split s2
                rw [he, List.append_nil] at e3
                exact ⟨pre, mid, s2, hp, hmid, e3 ▸ hpost, by rw [e1, e2]⟩
              · rw [if_neg he] at h; cases h
            · rw [if_neg hy] at h
              cases hm : members s.length [] s with
              | none => rw [hm] at h; cases h
              | some p =>
                obtain ⟨d, r⟩ := p
                rw [hm] at h
                simp only at h
                obtain ⟨m, ms, hg, e4⟩ := members_sound _ _ _ _ _ hm
                by_cases he : ws r = []
                · right
                  obtain ⟨post, hpost, e3⟩ := ws_split r
                  rw [he, List.append_nil] at e3
                  refine ⟨pre, m, ms, r, hp, e3 ▸ hpost, hg, ?_⟩
                  rw [e1, e4]
                  rfl
                · rw [if_neg he] at h; cases h
        · rw [if_neg hx] at h
          cases h

/-- `{"a" :7, "b":-2,"a": 10 }` gives the item `a` with frequency 10 and `b` with -2. -/
example : load plainCodec ['{', '"', '\\', 'u', '0', '0', '6', '1', '"', ' ', ':', '7', ',', ' ', '"', 'b', '"', ':', '-', '2', ',',
      '"', 'a', '"', ':', ' ', '1', '0', ' ', '}'] = .ok (mk' [(['a'], 10), (['b'], -2)]) ∧
    Spelled ['a'] ['\\', 'u', '0', '0', '6', '1'] := by
  refine ⟨by decide +kernel, [['\\', 'u', '0', '0', '6', '1']], .cons (.hex (n1 := 0) (n2 := 0) (n3 := 6) (n4 := 1) (.inl rfl) (.inl rfl)
    (.inl rfl) (.inl rfl) rfl) .nil, rfl⟩

end Verif.Vocab.Json
