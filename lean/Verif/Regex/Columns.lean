import Verif.Regex.Lemmas

/-!
# Line machines made of columns

The line machines of `/repo/nephosem/config.ini:13`, of `/repo/nephosem/tests` and of the documentation are columns separated by
tabs: `([^\t]+)` (a column that is kept), `[^\t]+` (a column that is skipped), `([^\t])[^\t]*` (of which the first
character is kept) and fixed text such as `_`.  The tab may be written as the character or as `\t`.
-/

namespace Verif.Regex

open Verif.Py
open Verif.Vocab.Plain (Str isSpace)
open Verif.Items (Match split join)

/-- A column of a line machine. -/
inductive Col where
  /-- `([^\t]+)` -/
  | keep
  /-- `[^\t]+` -/
  | drop
  /-- `([^\t])[^\t]*` -/
  | first
  /-- Fixed text. -/
  | lit (w : Str)
deriving DecidableEq

/-- The two ways to write a tab in a pattern. -/
def IsTab (tab : Str) : Prop := tab = ['\t'] ∨ tab = ['\\', 't']

/-- The pattern of a column. -/
def Col.text (tab : Str) : Col → Str
  | .keep => ['(', '[', '^'] ++ tab ++ [']', '+', ')']
  | .drop => ['[', '^'] ++ tab ++ [']', '+']
  | .first => ['(', '[', '^'] ++ tab ++ [']', ')', '[', '^'] ++ tab ++ [']', '*']
  | .lit w => w

/-- The pattern of a line machine. -/
def machine (tab : Str) : List Col → Str
  | [] => []
  | [k] => k.text tab
  | k :: k' :: ks => k.text tab ++ tab ++ machine tab (k' :: ks)

/-- Fixed text of plain characters, without tabs. -/
def Col.Good : Col → Prop
  | .lit w => (∀ c ∈ w, Plain c) ∧ '\t' ∉ w
  | _ => True

/-! ### What such a machine should do with a line -/

/-- Does a column fit, if more columns follow in the machine? -/
def Col.fits : Col → Str → Prop
  | .lit w, c => c = w
  | _, c => c ≠ []

/-- Does a column fit the last column of the machine? -/
def Col.fitsLast : Col → Str → Prop
  | .lit w, c => w <+: c
  | _, c => c ≠ []

instance (k : Col) (c : Str) : Decidable (k.fits c) := by cases k <;> unfold Col.fits <;> infer_instance
instance (k : Col) (c : Str) : Decidable (k.fitsLast c) := by cases k <;> unfold Col.fitsLast <;> infer_instance

/-- What is kept of a column. -/
def Col.kept : Col → Str → List Str
  | .keep, c => [c]
  | .first, c => [c.take 1]
  | _, _ => []

/-- What belongs to the match of the last column. -/
def Col.whole : Col → Str → Str
  | .lit w, _ => w
  | _, c => c

/-- What the machine should give for a line with these columns: the text of the match and the kept columns. -/
def expected : List Col → List Str → Option (Str × List Str)
  | [k], c :: _ => if k.fitsLast c then some (k.whole c, k.kept c) else none
  | k :: ks, c :: cs =>
    if k.fits c then (expected ks cs).map (fun e => (c ++ '\t' :: e.1, k.kept c ++ e.2)) else none
  | _, _ => none

/-! ### Compiling -/

/-- `[^\t]`. -/
abbrev noTab : Cls := .set true [.chr '\t']

/-- The number of groups of a column. -/
def Col.groups : Col → Nat
  | .keep => 1
  | .first => 1
  | _ => 0

/-- The expressions of a column. -/
def Col.parts : Col → Nat → List Re
  | .keep, n => [.grp (n + 1) (chain [.many noTab 1])]
  | .drop, _ => [.many noTab 1]
  | .first, n => [.grp (n + 1) (chain [.one noTab]), .many noTab 0]
  | .lit w, _ => w.map chrRe

/-- The number of groups of a machine. -/
def groups (ks : List Col) : Nat := (ks.map Col.groups).sum

/-- The expressions of a machine. -/
def parts : List Col → Nat → List Re
  | [], _ => []
  | [k], n => k.parts n
  | k :: k' :: ks, n => k.parts n ++ chrRe '\t' :: parts (k' :: ks) (n + k.groups)

theorem lex_col {tab : Str} (ht : IsTab tab) {k : Col} (hk : k.Good) :
    ∃ ts, lex .out (k.text tab) = some ts ∧ Adds ts k.parts k.groups := by
  cases k with
  | lit w => exact ⟨_, lex_word hk.1, Adds.word w⟩
  | keep =>
    refine ⟨[.open, .cls noTab, .plus, .close], ?_, fun f st n => rfl⟩
    rcases ht with rfl | rfl <;> decide +kernel
  | drop =>
    refine ⟨[.cls noTab, .plus], ?_, fun f st n => rfl⟩
    rcases ht with rfl | rfl <;> decide +kernel
  | first =>
    refine ⟨[.open, .cls noTab, .close, .cls noTab, .star], ?_, fun f st n => rfl⟩
    rcases ht with rfl | rfl <;> decide +kernel

theorem lex_tab {tab : Str} (ht : IsTab tab) : lex .out tab = some [.cls (.one (.chr '\t'))] := by
  rcases ht with rfl | rfl <;> decide +kernel

theorem lex_machine {tab : Str} (ht : IsTab tab) {ks : List Col} (hk : ∀ k ∈ ks, k.Good) :
    ∃ ts, lex .out (machine tab ks) = some ts ∧ Adds ts (parts ks) (groups ks) := by
  induction ks with
  | nil => exact ⟨[], rfl, Adds.nil⟩
  | cons k ks ih =>
    obtain ⟨ts, h1, h2⟩ := lex_col ht (hk k (List.mem_cons_self ..))
    cases ks with
    | nil =>
      have e : groups [k] = k.groups := by simp [groups]
      exact ⟨ts, h1, e ▸ h2⟩
    | cons k' ks =>
      obtain ⟨us, h3, h4⟩ := ih (fun x hx => hk x (List.mem_cons_of_mem _ hx))
      refine ⟨ts ++ [.cls (.one (.chr '\t'))] ++ us, lex_two (lex_two h1 (lex_tab ht)) h3, ?_⟩
      have h5 := (h2.append (Adds.word ['\t'])).append h4
      have e : groups (k :: k' :: ks) = k.groups + 0 + groups (k' :: ks) := by simp [groups]
      rw [e]
      intro f st n
      have := h5 f st n
      simp only [List.map_cons, List.map_nil, Nat.add_zero] at this ⊢
      rw [this]
      simp only [parts, List.append_assoc, List.singleton_append]

/-- The machine compiles. -/
theorem compile_machine {tab : Str} (ht : IsTab tab) {ks : List Col} (hk : ∀ k ∈ ks, k.Good) :
    compile (machine tab ks) = some (chain (parts ks 0), groups ks) := by
  obtain ⟨ts, h1, h2⟩ := lex_machine ht hk
  exact compile_adds h1 h2

/-! ### Matching -/

theorem noTab_has (u : Tables) (x : Char) : Cls.has u noTab x = decide (x ≠ '\t') := by
  by_cases h : x = '\t' <;> simp [h, Cls.has, Mem.has]

theorem span_col {u : Tables} {c z : Str} (hc : '\t' ∉ c) (hz : z = [] ∨ ∃ z', z = '\t' :: z') : span u noTab (c ++ z) = c.length := by
  induction c with
  | nil =>
    rcases hz with rfl | ⟨z', rfl⟩
    · rfl
    · simp [span, noTab_has]
  | cons x xs ih =>
    have hx : x ≠ '\t' := fun e => hc (e ▸ List.mem_cons_self ..)
    have := ih (fun h => hc (List.mem_cons_of_mem _ h))
    rw [span] at this ⊢
    rw [List.cons_append, List.takeWhile_cons, noTab_has, decide_eq_true hx, if_pos rfl, List.length_cons, this, List.length_cons]

theorem down_succ {lo n : Nat} (h : lo ≤ n) : ∃ l, down lo n = n :: l ∧ ∀ k ∈ l, k < n := by
  refine ⟨((List.range n).filter (fun k => lo ≤ k)).reverse, ?_, ?_⟩
  · rw [down, List.range_succ, List.filter_append, List.reverse_append]
    simp [h]
  · intro k hk
    rw [List.mem_reverse, List.mem_filter, List.mem_range] at hk
    exact hk.1

theorem down_empty {lo n : Nat} (h : n < lo) : down lo n = [] := by
  rw [List.eq_nil_iff_forall_not_mem]
  intro k hk
  have := mem_down.1 hk
  omega

/-- Of a greedy repetition whose shorter versions lead nowhere only the longest counts. -/
theorem flatMap_down {α : Type} {lo n : Nat} (f : Nat → List α) (h : ∀ k, k < n → f k = []) :
    (down lo n).flatMap f = if lo ≤ n then f n else [] := by
  by_cases hl : lo ≤ n
  · obtain ⟨l, e, hk⟩ := down_succ hl
    rw [e, List.flatMap_cons, if_pos hl]
    have : l.flatMap f = [] := by
      rw [List.flatMap_eq_nil_iff]
      exact fun k hk' => h k (hk k hk')
    rw [this, List.append_nil]
  · rw [down_empty (by omega), if_neg hl]
    rfl

/-- A state with further groups. -/
def St.with (s : St) (d : Dict Nat Str) : St := { s with caps := d }

/-- The groups a column adds. -/
def Col.caps (k : Col) (n : Nat) (c : Str) (d : Dict Nat Str) : Dict Nat Str :=
  match k with
  | .keep => Dict.set d (n + 1) c
  | .first => Dict.set d (n + 1) (c.take 1)
  | _ => d

/-- A tab in the middle of a column is not found. -/
theorem tab_middle {u : Tables} {s : St} {c z : Str} (hs : s.rest = c ++ z) (hc : '\t' ∉ c) {k : Nat} (hk : k < c.length)
    (d : Dict Nat Str) (more : List Re) : (chain (chrRe '\t' :: more)).runs u ((s.skip k).with d) = [] := by
  rw [runs_chain_cons, runs_chr, if_neg]
  · rfl
  · rintro ⟨t, ht⟩
    apply hc
    have h1 : ((s.skip k).with d).rest = c.drop k ++ z := by
      show s.rest.drop k = _
      rw [hs, List.drop_append_of_le_length (by omega)]
    rw [h1, List.singleton_append] at ht
    have h2 : (c.drop k).length > 0 := by rw [List.length_drop]; omega
    cases hd : c.drop k with
    | nil => rw [hd] at h2; simp at h2
    | cons x xs =>
      rw [hd, List.cons_append, List.cons.injEq] at ht
      rw [ht.1]
      have : x ∈ c.drop k := hd ▸ List.mem_cons_self ..
      exact List.mem_of_mem_drop this

theorem take_col {c z : Str} : (c ++ z).take c.length = c := List.take_left

/-- A column with a tab after it. -/
theorem runs_col {u : Tables} {k : Col} (hk : k.Good) {s : St} {c z : Str} (hs : s.rest = c ++ z) (hc : '\t' ∉ c)
    (hz : z = [] ∨ ∃ z', z = '\t' :: z') (n : Nat) (more : List Re) :
    (chain (k.parts n ++ chrRe '\t' :: more)).runs u s =
      if k.fits c then (chain (chrRe '\t' :: more)).runs u ((s.skip c.length).with (k.caps n c s.caps)) else [] := by
  rw [runs_chain_append]
  have hsp : span u noTab s.rest = c.length := by rw [hs]; exact span_col hc hz
  cases k with
  | lit w =>
    rw [Col.parts, runs_word]
    by_cases hw : c = w
    · subst hw
      rw [if_pos (hs ▸ List.prefix_append _ _), if_pos (show Col.fits (.lit c) c from rfl)]
      simp only [List.flatMap_cons, List.flatMap_nil, List.append_nil]
      rfl
    · rw [if_neg (show ¬ Col.fits (.lit w) c from hw)]
      split
      · rename_i hp
        simp only [List.flatMap_cons, List.flatMap_nil, List.append_nil]
        rw [runs_chain_cons, runs_chr, if_neg]
        · rfl
        · rintro ⟨t, ht⟩
          obtain ⟨v, hv⟩ := hp
          have h1 : (s.skip w.length).rest = v := by
            show s.rest.drop _ = _
            rw [← hv, List.drop_left]
          rw [h1, List.singleton_append] at ht
          rw [hs, ← ht] at hv
          rcases hz with rfl | ⟨z', rfl⟩
          · rw [List.append_nil] at hv
            exact hc (hv ▸ List.mem_append_right _ (List.mem_cons_self ..))
          · rcases List.append_eq_append_iff.1 hv with ⟨a, ha, hb⟩ | ⟨a, ha, hb⟩
            · cases a with
              | nil => exact hw (by rw [ha, List.append_nil])
              | cons x xs =>
                rw [List.cons_append, List.cons.injEq] at hb
                apply hc
                rw [ha, ← hb.1]
                exact List.mem_append_right _ (List.mem_cons_self ..)
            · cases a with
              | nil => exact hw (by rw [ha, List.append_nil])
              | cons x xs =>
                rw [List.cons_append, List.cons.injEq] at hb
                apply hk.2
                rw [ha, ← hb.1]
                exact List.mem_append_right _ (List.mem_cons_self ..)
      · rfl
  | drop =>
    show ((chain [Re.many noTab 1]).runs u s).flatMap _ = _
    rw [runs_chain_cons, List.flatMap_assoc]
    have h0 : ∀ t : St, List.flatMap ((chain (chrRe '\t' :: more)).runs u) ((chain []).runs u t) = (chain (chrRe '\t' :: more)).runs u t := by
      intro t; show List.flatMap _ [t] = _; simp
    rw [List.flatMap_congr (fun t _ => h0 t), Re.runs, hsp, List.flatMap_map,
      flatMap_down _ (fun k hk => by exact tab_middle hs hc hk s.caps more)]
    have : (1 ≤ c.length) ↔ Col.fits .drop c := by
      show _ ↔ c ≠ []
      rw [← List.length_pos_iff]
      exact Iff.rfl
    simp only [this]
    rfl
  | keep =>
    show ((chain [Re.grp (n + 1) (chain [Re.many noTab 1])]).runs u s).flatMap _ = _
    rw [runs_chain_cons, List.flatMap_assoc]
    have h0 : ∀ t : St, List.flatMap ((chain (chrRe '\t' :: more)).runs u) ((chain []).runs u t) = (chain (chrRe '\t' :: more)).runs u t := by
      intro t; show List.flatMap _ [t] = _; simp
    rw [List.flatMap_congr (fun t _ => h0 t), Re.runs, runs_chain_cons]
    have h1 : ∀ t : St, (chain []).runs u t = [t] := fun t => rfl
    rw [List.flatMap_congr (fun t _ => h1 t), List.flatMap_singleton', Re.runs, hsp, List.map_map, List.flatMap_map,
      flatMap_down _ (fun k hk => by exact tab_middle hs hc hk _ more)]
    have : (1 ≤ c.length) ↔ Col.fits .keep c := by
      show _ ↔ c ≠ []
      rw [← List.length_pos_iff]
      exact Iff.rfl
    simp only [this]
    congr 2
    show St.mk _ _ _ = St.mk _ _ _
    congr 1
    show Dict.set s.caps (n + 1) (s.rest.take (s.pos + c.length - s.pos)) = Dict.set s.caps (n + 1) c
    rw [Nat.add_sub_cancel_left, hs, take_col]
  | first =>
    show ((chain ([Re.grp (n + 1) (chain [Re.one noTab])] ++ [Re.many noTab 0])).runs u s).flatMap _ = _
    cases c with
    | nil =>
      rw [if_neg (fun h => h rfl)]
      have : (Re.one noTab).runs u s = [] := by
        rw [Re.runs, hs]
        rcases hz with rfl | ⟨z', rfl⟩
        · rfl
        · simp [noTab_has]
      have h2 : (chain ([Re.grp (n + 1) (chain [Re.one noTab])] ++ [Re.many noTab 0])).runs u s = [] := by
        rw [runs_chain_append, runs_chain_cons, Re.runs, runs_chain_cons, this]
        rfl
      rw [h2]
      rfl
    | cons x xs =>
      have hx : x ≠ '\t' := fun e => hc (e ▸ List.mem_cons_self ..)
      have h1 : (Re.one noTab).runs u s = [s.skip 1] := by
        rw [Re.runs, hs]
        simp [noTab_has, hx]
      have hcap : (Re.grp (n + 1) (chain [Re.one noTab])).runs u s = [(s.skip 1).with (Dict.set s.caps (n + 1) [x])] := by
        rw [Re.runs, runs_chain_cons, h1]
        show [St.mk _ _ _] = [St.mk _ _ _]
        congr 2
        show Dict.set s.caps (n + 1) (s.rest.take (s.pos + 1 - s.pos)) = _
        rw [Nat.add_sub_cancel_left, hs]
        rfl
      have hrest : ((s.skip 1).with (Dict.set s.caps (n + 1) [x])).rest = xs ++ z := by
        show s.rest.drop 1 = _
        rw [hs]
        rfl
      have hxs : '\t' ∉ xs := fun h => hc (List.mem_cons_of_mem _ h)
      rw [runs_chain_append, runs_chain_cons, hcap]
      have h3 : ∀ t : St, (chain []).runs u t = [t] := fun t => rfl
      simp only [List.flatMap_cons, List.flatMap_nil, List.append_nil, h3]
      rw [runs_chain_cons, List.flatMap_congr (fun t _ => h3 t), List.flatMap_singleton', Re.runs, hrest, span_col hxs hz,
        List.flatMap_map, flatMap_down _ (fun k hk => by
          have := tab_middle (u := u) (s := (s.skip 1).with (Dict.set s.caps (n + 1) [x])) hrest hxs hk
            (Dict.set s.caps (n + 1) [x]) more
          exact this), if_pos (Nat.zero_le _), if_pos (show Col.fits .first (x :: xs) from by simp [Col.fits])]
      congr 1
      show St.mk (s.pos + 1 + xs.length) ((s.rest.drop 1).drop xs.length) _ = St.mk (s.pos + (xs.length + 1)) (s.rest.drop (xs.length + 1)) _
      rw [List.drop_drop, Nat.add_assoc, Nat.add_comm 1 xs.length]
      rfl

/-- The last column. -/
theorem runs_last {u : Tables} {k : Col} (hk : k.Good) {s : St} {c z : Str} (hs : s.rest = c ++ z) (hc : '\t' ∉ c)
    (hz : z = [] ∨ ∃ z', z = '\t' :: z') (n : Nat) :
    ((chain (k.parts n)).runs u s).head? =
      if k.fitsLast c then some ((s.skip (k.whole c).length).with (k.caps n c s.caps)) else none := by
  have hsp : span u noTab s.rest = c.length := by rw [hs]; exact span_col hc hz
  have h3 : ∀ t : St, (chain []).runs u t = [t] := fun t => rfl
  cases k with
  | lit w =>
    rw [Col.parts, runs_word]
    have : w <+: s.rest ↔ Col.fitsLast (.lit w) c := by
      show _ ↔ w <+: c
      rw [hs]
      constructor
      · intro h
        obtain ⟨v, hv⟩ := h
        rcases List.append_eq_append_iff.1 hv with ⟨t, ht, _⟩ | ⟨t, rfl, ht'⟩
        · exact ⟨t, ht.symm⟩
        · have ht : t <+: z := ⟨v, ht'.symm⟩
          rcases hz with rfl | ⟨z', rfl⟩
          · rw [List.prefix_nil] at ht; subst ht; rw [List.append_nil]; exact List.prefix_rfl
          · cases t with
            | nil => rw [List.append_nil]; exact List.prefix_rfl
            | cons x xs =>
              rw [List.cons_prefix_cons] at ht
              exact absurd (ht.1 ▸ List.mem_append_right _ (List.mem_cons_self ..)) hk.2
      · exact fun h => h.trans (List.prefix_append _ _)
    by_cases hw : w <+: s.rest
    · rw [if_pos hw, if_pos (this.1 hw)]; rfl
    · rw [if_neg hw, if_neg (fun h => hw (this.2 h))]; rfl
  | drop =>
    show ((chain [Re.many noTab 1]).runs u s).head? = _
    rw [runs_chain_cons, List.flatMap_congr (fun t _ => h3 t), List.flatMap_singleton', Re.runs, hsp]
    by_cases hl : 1 ≤ c.length
    · obtain ⟨l, e, _⟩ := down_succ hl
      rw [e, if_pos (show Col.fitsLast .drop c from List.length_pos_iff.1 hl)]
      rfl
    · rw [down_empty (by omega), if_neg (show ¬ Col.fitsLast .drop c from fun h => hl (List.length_pos_iff.2 h))]
      rfl
  | keep =>
    show ((chain [Re.grp (n + 1) (chain [Re.many noTab 1])]).runs u s).head? = _
    rw [runs_chain_cons, List.flatMap_congr (fun t _ => h3 t), List.flatMap_singleton', Re.runs, runs_chain_cons,
      List.flatMap_congr (fun t _ => h3 t), List.flatMap_singleton', Re.runs, hsp]
    by_cases hl : 1 ≤ c.length
    · obtain ⟨l, e, _⟩ := down_succ hl
      rw [e, if_pos (show Col.fitsLast .keep c from List.length_pos_iff.1 hl)]
      simp only [List.map_cons, List.head?_cons]
      congr 1
      show St.mk _ _ _ = St.mk _ _ _
      congr 1
      show Dict.set s.caps (n + 1) (s.rest.take (s.pos + c.length - s.pos)) = Dict.set s.caps (n + 1) c
      rw [Nat.add_sub_cancel_left, hs, take_col]
    · rw [down_empty (by omega), if_neg (show ¬ Col.fitsLast .keep c from fun h => hl (List.length_pos_iff.2 h))]
      rfl
  | first =>
    show ((chain ([Re.grp (n + 1) (chain [Re.one noTab])] ++ [Re.many noTab 0])).runs u s).head? = _
    cases c with
    | nil =>
      rw [if_neg (fun h => h rfl)]
      have : (Re.one noTab).runs u s = [] := by
        rw [Re.runs, hs]
        rcases hz with rfl | ⟨z', rfl⟩
        · rfl
        · simp [noTab_has]
      rw [runs_chain_append, runs_chain_cons, Re.runs, runs_chain_cons, this]
      rfl
    | cons x xs =>
      have hx : x ≠ '\t' := fun e => hc (e ▸ List.mem_cons_self ..)
      have h1 : (Re.one noTab).runs u s = [s.skip 1] := by
        rw [Re.runs, hs]
        simp [noTab_has, hx]
      have hcap : (Re.grp (n + 1) (chain [Re.one noTab])).runs u s = [(s.skip 1).with (Dict.set s.caps (n + 1) [x])] := by
        rw [Re.runs, runs_chain_cons, h1]
        show [St.mk _ _ _] = [St.mk _ _ _]
        congr 2
        show Dict.set s.caps (n + 1) (s.rest.take (s.pos + 1 - s.pos)) = _
        rw [Nat.add_sub_cancel_left, hs]
        rfl
      have hrest : ((s.skip 1).with (Dict.set s.caps (n + 1) [x])).rest = xs ++ z := by
        show s.rest.drop 1 = _
        rw [hs]
        rfl
      have hxs : '\t' ∉ xs := fun h => hc (List.mem_cons_of_mem _ h)
      rw [runs_chain_append, runs_chain_cons, hcap]
      simp only [List.flatMap_cons, List.flatMap_nil, List.append_nil, h3]
      rw [runs_chain_cons, List.flatMap_congr (fun t _ => h3 t), List.flatMap_singleton', Re.runs, hrest, span_col hxs hz]
      obtain ⟨l, e, _⟩ := down_succ (Nat.zero_le xs.length)
      rw [e, if_pos (show Col.fitsLast .first (x :: xs) from by simp [Col.fitsLast])]
      simp only [List.map_cons, List.head?_cons]
      congr 1
      show St.mk (s.pos + 1 + xs.length) ((s.rest.drop 1).drop xs.length) _ = St.mk (s.pos + (xs.length + 1)) (s.rest.drop (xs.length + 1)) _
      rw [List.drop_drop, Nat.add_assoc, Nat.add_comm 1 xs.length]
      rfl

/-- A text begins with its first column. -/
theorem split_first (t : Str) : ∃ c z cs, t = c ++ z ∧ '\t' ∉ c ∧ split '\t' t = c :: cs ∧
    ((z = [] ∧ cs = []) ∨ ∃ z', z = '\t' :: z' ∧ cs = split '\t' z') := by
  induction t with
  | nil => exact ⟨[], [], [], rfl, by simp, rfl, .inl ⟨rfl, rfl⟩⟩
  | cons x xs ih =>
    by_cases hx : x = '\t'
    · subst hx
      exact ⟨[], '\t' :: xs, split '\t' xs, rfl, by simp, by rw [split, if_pos rfl], .inr ⟨xs, rfl, rfl⟩⟩
    · obtain ⟨c, z, cs, e, hc, hs, hz⟩ := ih
      refine ⟨x :: c, z, cs, by rw [e]; rfl, ?_, ?_, hz⟩
      · simp only [List.mem_cons, not_or]; exact ⟨fun h => hx h.symm, hc⟩
      · rw [split, if_neg hx, hs]

theorem get?_caps {k : Col} {n i : Nat} {c : Str} {d : Dict Nat Str} :
    Dict.get? (k.caps n c d) (i + 1) = if i < n ∨ n + k.groups ≤ i then Dict.get? d (i + 1) else (k.kept c)[i - n]? := by
  have key : ∀ v : Str, Dict.get? (Dict.set d (n + 1) v) (i + 1) =
      if i < n ∨ n + 1 ≤ i then Dict.get? d (i + 1) else [v][i - n]? := by
    intro v
    rw [Dict.get?_set]
    by_cases h : n + 1 = i + 1
    · have : i = n := by omega
      subst this
      simp
    · rw [if_neg h, if_pos (by omega)]
  cases k with
  | keep => exact key c
  | first => exact key (c.take 1)
  | drop => exact (if_pos (by simp only [Col.groups]; omega)).symm
  | lit w => exact (if_pos (by simp only [Col.groups]; omega)).symm

/-- The groups of a machine after a match. -/
theorem runs_machine {u : Tables} {ks : List Col} (hne : ks ≠ []) (hk : ∀ k ∈ ks, k.Good) (n : Nat) (s : St) :
    match expected ks (split '\t' s.rest) with
    | none => ((chain (parts ks n)).runs u s).head? = none
    | some (w, vs) => ∃ t, ((chain (parts ks n)).runs u s).head? = some t ∧ t.pos = s.pos + w.length ∧ w <+: s.rest ∧
        vs.length = groups ks ∧
        ∀ i, Dict.get? t.caps (i + 1) = if i < n ∨ n + groups ks ≤ i then Dict.get? s.caps (i + 1) else vs[i - n]? := by
  induction ks generalizing n s with
  | nil => exact absurd rfl hne
  | cons k ks ih =>
    have hg := hk k (List.mem_cons_self ..)
    obtain ⟨c, z, cs, hs, hc, hsp, hz⟩ := split_first s.rest
    have hz' : z = [] ∨ ∃ z', z = '\t' :: z' := by
      rcases hz with ⟨h, _⟩ | ⟨z', h, _⟩
      · exact .inl h
      · exact .inr ⟨z', h⟩
    rw [hsp]
    cases ks with
    | nil =>
      rw [expected, parts, runs_last hg hs hc hz' n]
      by_cases hf : k.fitsLast c
      · rw [if_pos hf, if_pos hf]
        refine ⟨_, rfl, rfl, ?_, ?_, fun i => ?_⟩
        · cases k with
          | lit w => rw [hs]; exact List.IsPrefix.trans hf (List.prefix_append _ _)
          | _ => rw [hs]; exact List.prefix_append _ _
        · cases k <;> rfl
        · have e : groups [k] = k.groups := by simp [groups]
          rw [e]
          exact get?_caps
      · rw [if_neg hf, if_neg hf]
    | cons k' ks =>
      rw [parts, runs_col hg hs hc hz' n]
      have hexp : expected (k :: k' :: ks) (c :: cs) =
          if k.fits c then (expected (k' :: ks) cs).map (fun e => (c ++ '\t' :: e.1, k.kept c ++ e.2)) else none := by
        rw [expected]
        simp
      rw [hexp]
      by_cases hf : k.fits c
      · rw [if_pos hf, if_pos hf]
        have htab : (chain (chrRe '\t' :: parts (k' :: ks) (n + k.groups))).runs u ((s.skip c.length).with (k.caps n c s.caps)) =
            if [('\t' : Char)] <+: z then (chain (parts (k' :: ks) (n + k.groups))).runs u ((s.skip (c.length + 1)).with (k.caps n c s.caps)) else [] := by
          rw [runs_chain_cons, runs_chr]
          have : ((s.skip c.length).with (k.caps n c s.caps)).rest = z := by
            show s.rest.drop _ = _
            rw [hs, List.drop_left]
          rw [this]
          split
          · simp only [List.flatMap_cons, List.flatMap_nil, List.append_nil]
            congr 1
            show St.mk _ _ _ = St.mk _ _ _
            congr 1
            show (s.rest.drop c.length).drop 1 = s.rest.drop (c.length + 1)
            rw [List.drop_drop]
          · rfl
        rw [htab]
        rcases hz with ⟨rfl, rfl⟩ | ⟨z', rfl, rfl⟩
        · have he : expected (k' :: ks) [] = none := by cases ks <;> rfl
          rw [he, if_neg (by simp)]
          rfl
        · rw [if_pos (by simp)]
          have hrest : ((s.skip (c.length + 1)).with (k.caps n c s.caps)).rest = z' := by
            show s.rest.drop _ = _
            rw [hs, ← List.drop_drop, List.drop_left]
            rfl
          have hi := ih (by simp) (fun x hx => hk x (List.mem_cons_of_mem _ hx)) (n + k.groups)
            ((s.skip (c.length + 1)).with (k.caps n c s.caps))
          rw [hrest] at hi
          cases he : expected (k' :: ks) (split '\t' z') with
          | none => rw [he] at hi; exact hi
          | some e =>
            obtain ⟨w, vs⟩ := e
            rw [he] at hi
            obtain ⟨t, h1, h2, h3, h4, h5⟩ := hi
            refine ⟨t, h1, ?_, ?_, ?_, fun i => ?_⟩
            · rw [h2]
              show s.pos + (c.length + 1) + w.length = s.pos + (c ++ '\t' :: w).length
              simp only [List.length_append, List.length_cons]
              omega
            · rw [hs]
              simpa using h3
            · have : (k.kept c).length = k.groups := by cases k <;> rfl
              rw [List.length_append, h4, this]
              simp [groups]
            · rw [h5 i]
              have hgr : groups (k :: k' :: ks) = k.groups + groups (k' :: ks) := by simp [groups]
              have hkl : (k.kept c).length = k.groups := by cases k <;> rfl
              rw [hgr]
              by_cases h6 : i < n + k.groups ∨ n + k.groups + groups (k' :: ks) ≤ i
              · rw [if_pos h6]
                show Dict.get? (k.caps n c s.caps) (i + 1) = _
                rw [get?_caps]
                by_cases h7 : i < n ∨ n + k.groups ≤ i
                · rw [if_pos h7, if_pos (by omega)]
                · rw [if_neg h7, if_neg (by omega), List.getElem?_append_left (by omega)]
              · rw [if_neg h6, if_neg (by omega), List.getElem?_append_right (by omega), hkl]
                congr 1
                omega
      · rw [if_neg hf, if_neg hf]
        rfl

/-- What a machine of columns gives for any text. -/
theorem exec_machine (u : Tables) {tab : Str} (ht : IsTab tab) {ks : List Col} (hne : ks ≠ []) (hk : ∀ k ∈ ks, k.Good) (text : Str) :
    reMatch u (machine tab ks) text =
      (expected ks (split '\t' text)).map (fun e => some e.1 :: e.2.map some) := by
  have h := runs_machine (u := u) hne hk 0 ⟨0, text, []⟩
  rw [reMatch, compile_machine ht hk]
  simp only [Re.exec]
  simp only at h
  cases he : expected ks (split '\t' text) with
  | none =>
    rw [he] at h
    rw [h]
    rfl
  | some e =>
    obtain ⟨w, vs⟩ := e
    rw [he] at h
    obtain ⟨t, h1, h2, h3, h4, h5⟩ := h
    rw [h1]
    simp only [Option.map_some]
    congr 2
    · rw [h2]
      simp only [Nat.zero_add]
      rw [← List.prefix_iff_eq_take.1 h3]
    · apply List.ext_getElem?
      intro i
      rw [List.getElem?_map, List.getElem?_map]
      by_cases hi : i < groups ks
      · rw [List.getElem?_range hi, Option.map_some, h5 i, if_neg (by omega), Nat.sub_zero, List.getElem?_eq_getElem (h4 ▸ hi)]
        rfl
      · rw [List.getElem?_eq_none (by rw [List.length_range]; omega), List.getElem?_eq_none (by omega)]
        rfl

end Verif.Regex
