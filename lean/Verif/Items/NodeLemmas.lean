import Verif.Items.Nodes
import Verif.Items.PropsFormatter
import Verif.Vocab.PlainLemmas

/-!
# Lemmas on nodes and file names
-/

namespace Verif.Items

open Verif.Py
open Verif.Vocab.Plain (Str)

/-! ## Splitting -/

theorem split_sep (c : Char) (s t : Str) : split c (s ++ c :: t) = split c s ++ split c t := by
  induction s with
  | nil => simp [split]
  | cons x xs ih =>
    rw [List.cons_append, split, split, ih]
    by_cases hx : x = c
    · rw [if_pos hx, if_pos hx]; rfl
    · rw [if_neg hx, if_neg hx]
      cases hs : split c xs with
      | nil => exact absurd hs (split_ne_nil c xs)
      | cons p ps => rfl

theorem split_append_noc (c : Char) (s t : Str) (h : c ∉ t) :
    split c (s ++ t) = (split c s).dropLast ++ [(split c s).getLastD [] ++ t] := by
  induction s with
  | nil => simp [split, split_noc c t h]
  | cons x xs ih =>
    rw [List.cons_append, split, split, ih]
    by_cases hx : x = c
    · rw [if_pos hx, if_pos hx]
      cases hs : split c xs with
      | nil => exact absurd hs (split_ne_nil c xs)
      | cons p ps => simp
    · rw [if_neg hx, if_neg hx]
      cases hs : split c xs with
      | nil => exact absurd hs (split_ne_nil c xs)
      | cons p ps =>
        cases ps with
        | nil => simp
        | cons q qs => simp

theorem split_length (c : Char) (s : Str) : (split c s).length = s.count c + 1 := by
  induction s with
  | nil => rfl
  | cons x xs ih =>
    rw [split]
    by_cases hx : x = c
    · rw [if_pos hx, List.length_cons, ih, hx, List.count_cons_self]
    · rw [if_neg hx, List.count_cons_of_ne hx, ← ih]
      cases hs : split c xs with
      | nil => exact absurd hs (split_ne_nil c xs)
      | cons p ps => rfl

theorem join_count (c : Char) (l : List Str) (h : l ≠ []) :
    (join c l).count c + 1 = (l.map (fun s => s.count c)).sum + l.length := by
  induction l with
  | nil => exact absurd rfl h
  | cons s ts ih =>
    cases ts with
    | nil => simp [join]
    | cons t ts =>
      have := ih (by simp)
      rw [join_cons c s (by simp), List.count_append, List.count_cons_self]
      simp only [List.map_cons, List.sum_cons, List.length_cons] at this ⊢
      omega

/-! ## Rendering -/

theorem render_ok (a : Attrs) (fmt v : Str) :
    render a fmt = .ok v ↔ ∃ vals, List.Forall₂ (fun c val => Dict.get? a c = some (some val)) (split '/' fmt) vals ∧
      v = join '/' vals := by
  unfold render
  constructor
  · intro h
    obtain ⟨vs, hv, h⟩ := bind_ok h
    obtain ⟨ss, hs, h⟩ := bind_ok h
    obtain rfl := Except.ok.inj h
    refine ⟨ss, ?_, rfl⟩
    rw [mapM_forall₂] at hv hs
    clear * - hv hs
    generalize split '/' fmt = parts at hv ⊢
    induction hv generalizing ss with
    | nil => cases hs; exact .nil
    | cons h1 _ ih =>
      cases hs with
      | cons h2 h3 =>
        refine .cons ?_ (ih _ h3)
        unfold component at h1
        split at h1
        · obtain rfl := Except.ok.inj h1
          rename_i g hm
          rw [hm]
          cases g with
          | none => exact (nomatch h2)
          | some s => obtain rfl := Except.ok.inj h2; rfl
        · exact (nomatch h1)
  · rintro ⟨vals, hv, rfl⟩
    have h1 : (split '/' fmt).mapM (component a) = .ok (vals.map some) := by
      rw [mapM_forall₂, List.forall₂_map_right_iff]
      refine hv.imp ?_
      intro n val h
      unfold component
      rw [h]
    have h2 : (vals.map some).mapM asStr = .ok vals := by
      rw [mapM_forall₂, List.forall₂_map_left_iff]
      exact List.forall₂_same.2 (fun _ _ => rfl)
    rw [h1]
    show (List.mapM asStr (vals.map some) >>= fun ss => pure (join '/' ss)) = _
    rw [h2]
    rfl

/-! ## Taking a string apart -/

theorem assign_frame {names : List Str} {l : List (Str × Str)} {st st' : Attrs} (h : assign names l st = .ok st')
    (c : Str) (hc : c ∉ l.map (·.2)) : Dict.get? st' c = Dict.get? st c := by
  induction l generalizing st with
  | nil => rw [Except.ok.inj h]
  | cons p l ih =>
    obtain ⟨e, f⟩ := p
    rw [assign] at h
    split at h
    · simp only [List.map_cons, List.mem_cons, not_or] at hc
      rw [ih h hc.2, Dict.get?_set, if_neg (Ne.symm hc.1)]
    · exact (nomatch h)

theorem assign_get {names : List Str} {l : List (Str × Str)} {st st' : Attrs} (h : assign names l st = .ok st')
    (hn : (l.map (·.2)).Nodup) : ∀ p ∈ l, Dict.get? st' p.2 = some (some p.1) := by
  induction l generalizing st with
  | nil => simp
  | cons p l ih =>
    obtain ⟨e, f⟩ := p
    rw [assign] at h
    simp only [List.map_cons, List.nodup_cons] at hn
    split at h
    · intro q hq
      rcases List.mem_cons.1 hq with rfl | hq
      · rw [assign_frame h _ hn.1, Dict.get?_set, if_pos rfl]
      · exact ih h hn.2 q hq
    · exact (nomatch h)

theorem assign_ok_iff {names : List Str} {l : List (Str × Str)} {st : Attrs} :
    (∃ st', assign names l st = .ok st') ↔ ∀ c ∈ l.map (·.2), c ∈ names := by
  induction l generalizing st with
  | nil => simp [assign]
  | cons p l ih =>
    obtain ⟨e, f⟩ := p
    rw [assign]
    by_cases hf : f ∈ names
    · rw [if_pos hf, ih]
      simp [hf]
    · rw [if_neg hf]
      simp [hf]

theorem assign_error {names : List Str} {l : List (Str × Str)} {st : Attrs} {e : Err}
    (h : assign names l st = .error e) : e = .value := by
  induction l generalizing st with
  | nil => exact (nomatch h)
  | cons p l ih =>
    obtain ⟨x, f⟩ := p
    rw [assign] at h
    split at h
    · exact ih h
    · exact (Except.error.inj h).symm

theorem takeApart_ok_iff {names : List Str} {str fmt : Str} {st : Attrs} :
    (∃ st', takeApart names str fmt st = .ok st') ↔
      (split '/' str).length = (split '/' fmt).length ∧ ∀ c ∈ split '/' fmt, c ∈ names := by
  unfold takeApart
  by_cases h : (split '/' str).length = (split '/' fmt).length
  · rw [if_neg (by simpa using h), assign_ok_iff, List.map_snd_zip (by omega)]
    simp [h]
  · rw [if_pos h]
    simp [h]

theorem takeApart_error {names : List Str} {str fmt : Str} {st : Attrs} {e : Err}
    (h : takeApart names str fmt st = .error e) : e = .value := by
  unfold takeApart at h
  split at h
  · exact (Except.error.inj h).symm
  · exact assign_error h

theorem takeApart_get {names : List Str} {str fmt : Str} {st st' : Attrs} (h : takeApart names str fmt st = .ok st')
    (hn : (split '/' fmt).Nodup) :
    List.Forall₂ (fun c val => Dict.get? st' c = some (some val)) (split '/' fmt) (split '/' str) := by
  have hlen := (takeApart_ok_iff.1 ⟨_, h⟩).1
  unfold takeApart at h
  rw [if_neg (by simpa using hlen)] at h
  have hg := assign_get h (by rw [List.map_snd_zip (by omega)]; exact hn)
  rw [List.forall₂_iff_zip]
  refine ⟨hlen.symm, ?_⟩
  intro a b hab
  refine hg (b, a) ?_
  obtain ⟨i, hi, he⟩ := List.mem_iff_getElem.1 hab
  rw [List.getElem_zip] at he
  simp only [Prod.mk.injEq] at he
  refine List.mem_iff_getElem.2 ⟨i, by simpa [Nat.min_comm] using hi, ?_⟩
  rw [List.getElem_zip, he.1, he.2]

theorem typeNames_ne {c : Str} (h : c ∈ typeNames) :
    "type_fmt".toList ≠ c ∧ "colloc_fmt".toList ≠ c ∧ "format".toList ≠ c ∧ "fid".toList ≠ c ∧ "lid".toList ≠ c := by
  simp only [typeNames, List.mem_cons, List.not_mem_nil, or_false] at h
  rcases h with rfl | rfl | rfl <;> decide

/-! ## File names -/

theorem splitext_ext (r ext : Str) (h1 : '.' ∉ ext) (h2 : '/' ∉ ext)
    (h3 : ∃ c ∈ (split '/' r).getLastD [], c ≠ '.') : splitext (r ++ '.' :: ext) = r := by
  have hne := split_ne_nil '/' r
  obtain ⟨init, base, hb⟩ : ∃ init base, split '/' r = init ++ [base] := by
    rcases List.eq_nil_or_concat (split '/' r) with h | ⟨a, b, h⟩
    · exact absurd h hne
    · exact ⟨a, b, by rw [h, List.concat_eq_append]⟩
  have hs : split '/' (r ++ '.' :: ext) = init ++ [base ++ '.' :: ext] := by
    rw [split_append_noc '/' r _ (by simp [h2]), hb]
    simp
  have hlast : (split '/' r).getLastD [] = base := by rw [hb]; simp
  rw [hlast] at h3
  have htake : ∀ b : Str, (∃ c ∈ b, c ≠ '.') → (b ++ '.' :: ext).takeWhile (· == '.') = b.takeWhile (· == '.') ∧
      (b ++ '.' :: ext).dropWhile (· == '.') = b.dropWhile (· == '.') ++ '.' :: ext := by
    intro b
    induction b with
    | nil => rintro ⟨c, hc, _⟩; simp at hc
    | cons x xs ih =>
      rintro ⟨c, hc, hcn⟩
      by_cases hx : x = '.'
      · have hc' : c ∈ xs := by
          rcases List.mem_cons.1 hc with rfl | hc
          · exact absurd hx hcn
          · exact hc
        have := ih ⟨c, hc', hcn⟩
        simp [hx, this.1, this.2]
      · have : (x == '.') = false := by simpa using hx
        simp [this]
  obtain ⟨t1, t2⟩ := htake base h3
  have hcut : ∀ x : Str, cutLast (x ++ '.' :: ext) = x := by
    intro x
    unfold cutLast
    have hx : split '.' (x ++ '.' :: ext) = split '.' x ++ [ext] := by rw [split_sep, split_noc '.' ext h1]
    rw [hx]
    have : 0 < (split '.' x).length := List.length_pos_iff.2 (split_ne_nil '.' x)
    rw [if_neg (by simp; exact split_ne_nil '.' x), List.dropLast_concat, join_split]
  unfold splitext
  simp only [hs, List.dropLast_concat, List.getLastD_concat, t1, t2, hcut, List.takeWhile_append_dropWhile]
  rw [← hb, join_split]

theorem natStr_noSlash (n : Nat) : '/' ∉ Vocab.Plain.natStr n := by
  intro h
  have := (Vocab.Plain.natStr_digits n).2 '/' h
  revert this
  decide

theorem natStr_inj {a b : Nat} (h : Vocab.Plain.natStr a = Vocab.Plain.natStr b) : a = b := by
  have h1 := Vocab.Plain.parseDigits_natStr a
  rw [h, Vocab.Plain.parseDigits_natStr b] at h1
  exact (Option.some.inj h1).symm

/-- Parts without separator, then a part, then a last part without separator, are determined by what they join to. -/
theorem join_inj {c : Char} {vs vs' : List Str} {x x' y y' : Str} (hv : ∀ s ∈ vs, c ∉ s) (hv' : ∀ s ∈ vs', c ∉ s)
    (hl : vs.length = vs'.length) (hy : c ∉ y) (hy' : c ∉ y') (h : join c (vs ++ [x, y]) = join c (vs' ++ [x', y'])) :
    vs = vs' ∧ x = x' ∧ y = y' := by
  induction vs generalizing vs' with
  | nil =>
    cases vs' with
    | cons => simp at hl
    | nil =>
      simp only [List.nil_append, join] at h
      have h1 : split c (x ++ c :: y) = split c x ++ [y] := by rw [split_sep, split_noc c y hy]
      have h2 : split c (x' ++ c :: y') = split c x' ++ [y'] := by rw [split_sep, split_noc c y' hy']
      rw [h, h2] at h1
      have := List.append_inj' h1 rfl
      refine ⟨rfl, ?_, ?_⟩
      · rw [← join_split c x, ← join_split c x', this.1]
      · have := this.2; simp at this; exact this.symm
  | cons v vs ih =>
    cases vs' with
    | nil => simp at hl
    | cons v' vs' =>
      rw [List.cons_append, List.cons_append, join_cons c v (by simp), join_cons c v' (by simp)] at h
      have h1 := split_append c v (join c (vs ++ [x, y])) (hv v (by simp))
      rw [h, split_append c v' _ (hv' v' (by simp))] at h1
      simp only [List.cons.injEq] at h1
      have h2 : join c (vs ++ [x, y]) = join c (vs' ++ [x', y']) := by
        rw [← join_split c (join c (vs ++ [x, y])), ← h1.2, join_split]
      have := ih (fun s hs => hv s (by simp [hs])) (fun s hs => hv' s (by simp [hs])) (by simpa using hl) h2
      exact ⟨by rw [h1.1, this.1], this.2⟩

end Verif.Items
