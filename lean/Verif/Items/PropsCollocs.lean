import Verif.Items.Collocs
import Mathlib.Data.List.Nodup

/-!
# C200: the collocates of a type node
-/

namespace Verif.Items

open Verif.Py
open Verif.Vocab.Plain (Str)

/-! ### Specification -/

/-- All collocates of the tokens that have some, token after token, left before right. -/
def allNodes (tokens : List TokenObj) : List NodeObj :=
  tokens.flatMap (fun t => t.lcollocs.getD [] ++ t.rcollocs.getD [])

/-- Every token was made with its collocates, be it an empty list. -/
def HaveCollocs (tokens : List TokenObj) : Prop := ∀ t ∈ tokens, t.lcollocs ≠ none ∧ t.rcollocs ≠ none

/-! ### Proof -/

/-- Adding nodes by identity. -/
def addAll (acc ns : List NodeObj) : List NodeObj :=
  ns.foldl (fun acc n => if acc.any (fun x => x.ident == n.ident) then acc else acc ++ [n]) acc

theorem addAll_append (acc xs ys : List NodeObj) : addAll acc (xs ++ ys) = addAll (addAll acc xs) ys := by
  unfold addAll
  rw [List.foldl_append]

theorem collocsLoop_ok {tokens : List TokenObj} (h : HaveCollocs tokens) (acc : List NodeObj) :
    collocsLoop tokens acc = .ok (addAll acc (allNodes tokens)) := by
  induction tokens generalizing acc with
  | nil => rfl
  | cons t ts ih =>
    obtain ⟨h1, h2⟩ := h t (List.mem_cons_self ..)
    obtain ⟨l, hl⟩ := Option.ne_none_iff_exists'.1 h1
    obtain ⟨r, hr⟩ := Option.ne_none_iff_exists'.1 h2
    have : allNodes (t :: ts) = l ++ (r ++ allNodes ts) := by
      unfold allNodes
      rw [List.flatMap_cons, hl, hr]
      simp
    rw [this, addAll_append, addAll_append]
    unfold collocsLoop
    rw [hl, hr]
    exact ih (fun x hx => h x (List.mem_cons_of_mem _ hx)) _

theorem collocsLoop_fails {tokens : List TokenObj} (h : ¬ HaveCollocs tokens) (acc : List NodeObj) :
    collocsLoop tokens acc = .error .type := by
  induction tokens generalizing acc with
  | nil => exact absurd (fun t ht => nomatch ht) h
  | cons t ts ih =>
    unfold collocsLoop
    cases hl : t.lcollocs with
    | none => rfl
    | some l =>
      cases hr : t.rcollocs with
      | none => rfl
      | some r =>
        refine ih (fun hts => h ?_) _
        intro x hx
        rcases List.mem_cons.1 hx with rfl | hx
        · rw [hl, hr]; simp
        · exact hts x hx

/-- What the set has: no two members with one identity, the identities of what was there and of what was added. -/
theorem addAll_spec (ns : List NodeObj) : ∀ acc : List NodeObj, (acc.map NodeObj.ident).Nodup →
    ((addAll acc ns).map NodeObj.ident).Nodup ∧ (∀ i, i ∈ (addAll acc ns).map NodeObj.ident ↔ i ∈ acc.map NodeObj.ident ∨ i ∈ ns.map NodeObj.ident) ∧
    (∀ n ∈ addAll acc ns, n ∈ acc ∨ n ∈ ns) := by
  induction ns with
  | nil => intro acc h; exact ⟨h, fun i => by simp [addAll], fun n hn => .inl hn⟩
  | cons n ns ih =>
    intro acc h
    have hstep : addAll acc (n :: ns) = addAll (if acc.any (fun x => x.ident == n.ident) then acc else acc ++ [n]) ns := rfl
    rw [hstep]
    by_cases ha : acc.any (fun x => x.ident == n.ident) = true
    · rw [if_pos ha]
      obtain ⟨h1, h2, h3⟩ := ih acc h
      have hm : n.ident ∈ acc.map NodeObj.ident := by
        obtain ⟨x, hx, he⟩ := List.any_eq_true.1 ha
        exact List.mem_map.2 ⟨x, hx, by simpa using he⟩
      refine ⟨h1, fun i => ?_, fun m hm => (h3 m hm).imp id (List.mem_cons_of_mem _)⟩
      rw [h2, List.map_cons, List.mem_cons]
      constructor
      · rintro (h | h)
        · exact .inl h
        · exact .inr (.inr h)
      · rintro (h | h | h)
        · exact .inl h
        · exact .inl (h ▸ hm)
        · exact .inr h
    · rw [if_neg ha]
      have hnm : n.ident ∉ acc.map NodeObj.ident := by
        intro hm
        obtain ⟨x, hx, he⟩ := List.mem_map.1 hm
        exact ha (List.any_eq_true.2 ⟨x, hx, by simp [he]⟩)
      obtain ⟨h1, h2, h3⟩ := ih (acc ++ [n]) (by
        rw [List.map_append, List.nodup_append]
        exact ⟨h, by simp, fun a ha b hb => by simp at hb; rintro rfl; exact hnm (hb ▸ ha)⟩)
      refine ⟨h1, fun i => ?_, fun m hm => ?_⟩
      · rw [h2]
        simp only [List.map_append, List.map_cons, List.map_nil, List.mem_append, List.mem_cons, List.not_mem_nil, or_false]
        tauto
      · rcases h3 m hm with h | h
        · rcases List.mem_append.1 h with h | h
          · exact .inl h
          · exact .inr (by rw [List.mem_singleton.1 h]; exact List.mem_cons_self ..)
        · exact .inr (List.mem_cons_of_mem _ h)

theorem addAll_fresh (ns : List NodeObj) : ∀ acc : List NodeObj, ((acc ++ ns).map NodeObj.ident).Nodup → addAll acc ns = acc ++ ns := by
  induction ns with
  | nil => intro acc _; simp [addAll]
  | cons n ns ih =>
    intro acc h
    have ha : ¬ acc.any (fun x => x.ident == n.ident) = true := by
      intro ha
      obtain ⟨x, hx, he⟩ := List.any_eq_true.1 ha
      rw [List.map_append, List.nodup_append] at h
      exact h.2.2 _ (List.mem_map_of_mem hx) _ (List.mem_map_of_mem (List.mem_cons_self ..)) (by simpa using he)
    have hstep : addAll acc (n :: ns) = addAll (if acc.any (fun x => x.ident == n.ident) then acc else acc ++ [n]) ns := rfl
    rw [hstep, if_neg ha, ih _ (by simpa using h)]
    simp

/-- **C200** (partial): if every token was made with its collocates, `collocs` has, whatever the objects are, exactly the collocate
strings of the tokens; each is there once if no two tokens or places have the same collocate, or if equal collocates are one object.
Missing: equal collocates of different places (`C200_false`) and tokens made without collocates (`C200_none`). -/
theorem C200_partial {tokens : List TokenObj} (h : HaveCollocs tokens) (hid : ∀ m ∈ allNodes tokens, ∀ n ∈ allNodes tokens, m.ident = n.ident → m = n) :
    ∃ cs, getCollocs tokens = .ok cs ∧ (∀ (fmt : Option Str) (c : Str), (∃ n ∈ cs, toColloc n.attrs fmt = .ok c) ↔
        ∃ n ∈ allNodes tokens, toColloc n.attrs fmt = .ok c) ∧
      ∀ fmt, (∀ m ∈ allNodes tokens, ∀ n ∈ allNodes tokens, toColloc m.attrs fmt = toColloc n.attrs fmt → m.ident = n.ident) →
        (cs.map (fun n => toColloc n.attrs fmt)).Nodup := by
  obtain ⟨h1, h2, h3⟩ := addAll_spec (allNodes tokens) [] (by simp)
  refine ⟨_, collocsLoop_ok h [], fun fmt c => ⟨?_, ?_⟩, fun fmt hinj => ?_⟩
  · rintro ⟨n, hn, hc⟩
    exact ⟨n, (h3 n hn).resolve_left (by simp), hc⟩
  · rintro ⟨n, hn, hc⟩
    obtain ⟨m, hm, he⟩ := List.mem_map.1 ((h2 n.ident).2 (.inr (List.mem_map_of_mem hn)))
    have := hid m ((h3 m hm).resolve_left (by simp)) n hn he
    exact ⟨m, hm, this ▸ hc⟩
  · rw [List.Nodup, List.pairwise_map]
    rw [List.Nodup, List.pairwise_map] at h1
    refine h1.imp_of_mem ?_
    intro m n hm hn hne he
    exact hne (hinj m ((h3 m hm).resolve_left (by simp)) n ((h3 n hn).resolve_left (by simp)) he)

/-- **C200**, what the handler's tokens give: when the nodes of all places are different objects, as `update_one_match` makes them
(typetoken.py 599-602), `collocs` has one member for every place of every token. -/
theorem C200_places {tokens : List TokenObj} (h : HaveCollocs tokens) (hid : ((allNodes tokens).map NodeObj.ident).Nodup) :
    getCollocs tokens = .ok (allNodes tokens) := by
  rw [getCollocs, collocsLoop_ok h, addAll_fresh _ _ (by simpa using hid), List.nil_append]

/-- **C200 is false** for tokens made without collocates, as `TokenNode(...)` makes them by default: `TypeError`. -/
theorem C200_none {tokens : List TokenObj} (h : ¬ HaveCollocs tokens) : getCollocs tokens = .error .type := collocsLoop_fails h []

/-- The node of `the` on a line of a file. -/
def theNode (i : Nat) : NodeObj :=
  ⟨i, [("word".toList, some "the".toList), ("lemma".toList, some "the".toList), ("pos".toList, some "D".toList),
    ("type_fmt".toList, some "lemma/pos".toList), ("colloc_fmt".toList, some "lemma/pos".toList)]⟩

/-- **C200 is false**: two tokens of a type with `the` before each; `collocs` has `the/D` twice. -/
theorem C200_false : ∃ tokens cs, HaveCollocs tokens ∧ getCollocs tokens = .ok cs ∧
    cs.map (fun n => toColloc n.attrs none) = [.ok "the/D".toList, .ok "the/D".toList] := by
  refine ⟨[⟨some [theNode 1], some []⟩, ⟨some [theNode 2], some []⟩], [theNode 1, theNode 2], ?_, by decide +kernel, by decide +kernel⟩
  intro t ht
  simp only [List.mem_cons, List.not_mem_nil, or_false] at ht
  rcases ht with rfl | rfl <;> simp

/-- The hypotheses of `C200_partial` and `C200_places`: one token with two collocates. -/
example : HaveCollocs [⟨some [theNode 1], some [⟨2, [("lemma".toList, some "old".toList), ("colloc_fmt".toList, some "lemma".toList)]⟩]⟩] ∧
    ((allNodes [⟨some [theNode 1], some [⟨2, [("lemma".toList, some "old".toList), ("colloc_fmt".toList, some "lemma".toList)]⟩]⟩]).map NodeObj.ident).Nodup ∧
    (allNodes [⟨some [theNode 1], some [⟨2, [("lemma".toList, some "old".toList), ("colloc_fmt".toList, some "lemma".toList)]⟩]⟩]).map
      (fun n => toColloc n.attrs none) = [.ok "the/D".toList, .ok "old".toList] := by
  refine ⟨?_, by decide, by decide +kernel⟩
  intro t ht
  rw [List.mem_singleton.1 ht]
  simp

end Verif.Items
