import Verif.Dep.PropsBasic
import Verif.Dep.PropsRawGraph

set_option linter.unusedSectionVars false

/-!
# C152: reading a sentence with the older classes
-/

namespace Verif.Dep.Basic
open Verif.Py Verif.Dep Verif.Vocab.Plain

/-! ## Specification -/

/-- Numbers of words and heads are natural numbers, and no two words have the same number. -/
structure Counted (ws : List Word6) : Prop where
  idx : ∀ w ∈ ws, 0 ≤ w.idx
  head : ∀ w ∈ ws, 0 ≤ w.head
  distinct : (ws.map Word6.idx).Nodup

/-- The number of a word, the number of its head, its label and its relation. -/
def wno (w : Word6) : Nat := w.idx.toNat
def hno (w : Word6) : Nat := w.head.toNat
def wlabel (w : Word6) : String := String.ofList w.name
def wrel (w : Word6) : String := String.ofList w.rel

/-- The graph of a sentence: the words with their labels, the numbers that are only heads without label, an edge from the head to each
word. -/
structure Reads (ws : List Word6) (g : LGraph) : Prop where
  words : ∀ w ∈ ws, g.nodes.get? (wno w) = some (some (wlabel w))
  nodes : ∀ v, v ∈ g.nodes.keys ↔ ∃ w ∈ ws, v = wno w ∨ v = hno w
  bare : ∀ v, g.nodes.get? v = some none ↔ (∃ w ∈ ws, v = hno w) ∧ ∀ w ∈ ws, v ≠ wno w
  edges : ∀ e r, g.edges.get? e = some r ↔ ∃ w ∈ ws, e = (hno w, wno w) ∧ r = wrel w
  nodesWF : g.nodes.WF
  edgesWF : g.edges.WF

/-! ## Lines -/

theorem natOf_intStr {n : Int} (h : 0 ≤ n) : natOf (intStr n) = .ok n.toNat := by
  unfold natOf
  rw [parseInt_intStr]
  obtain ⟨k, rfl⟩ := Int.eq_ofNat_of_zero_le h
  rfl

def putWord (st : Dict Nat String × Dict (Nat × Nat) String) (w : Word6) : Dict Nat String × Dict (Nat × Nat) String :=
  (st.1.set (wno w) (wlabel w), st.2.set (hno w, wno w) (wrel w))

theorem lineStep_word {w : Word6} (h : w.Clean) (h1 : 0 ≤ w.idx) (h2 : 0 ≤ w.head) {p q : Str} (hp : Blank p) (hq : Blank q)
    (st : Dict Nat String × Dict (Nat × Nat) String) : lineStep st (p ++ w.text ++ q) = .ok (putWord st w) := by
  unfold lineStep
  rw [strip_pad hp hq h.trimmed, splitTab_text h]
  simp only [natOf_intStr h1, natOf_intStr h2]
  rfl

theorem lineStep_skip {core p q : Str} (hc : core = [] ∨ Trimmed core) (hn : core.count '\t' ≠ 5) (hp : Blank p)
    (hq : Blank q) (st : Dict Nat String × Dict (Nat × Nat) String) : lineStep st (p ++ core ++ q) = .ok st := by
  have hs : strip (p ++ core ++ q) = core := by
    rcases hc with rfl | h
    · rw [List.append_nil]; exact strip_blank hp hq
    · exact strip_pad hp hq h
  have hl : (splitTab core).length ≠ 6 := by rw [splitTab_length]; omega
  unfold lineStep
  rw [hs]
  split
  · next h => rw [h] at hl; exact absurd rfl hl
  · rfl

theorem lines_fold {ls : List Str} {ws : List Word6} (h : Written ls ws) : ∀ (_ : ∀ w ∈ ws, 0 ≤ w.idx) (_ : ∀ w ∈ ws, 0 ≤ w.head)
    (st : Dict Nat String × Dict (Nat × Nat) String), ls.foldlM lineStep st = .ok (ws.foldl putWord st) := by
  induction h with
  | nil => intro _ _ st; rfl
  | @word w p q ls ws hw hp hq _ ih =>
    intro h1 h2 st
    rw [List.foldlM_cons, lineStep_word hw (h1 w (by simp)) (h2 w (by simp)) hp hq]
    exact ih (fun w h => h1 w (by simp [h])) (fun w h => h2 w (by simp [h])) _
  | skip hc hn hp hq _ ih =>
    intro h1 h2 st
    rw [List.foldlM_cons, lineStep_skip hc hn hp hq]
    exact ih h1 h2 st

theorem putWord_fold (ws : List Word6) : ∀ st : Dict Nat String × Dict (Nat × Nat) String, ws.foldl putWord st =
    ((ws.map (fun w => (wno w, wlabel w))).foldl (fun d e => d.set e.1 e.2) st.1,
      (ws.map (fun w => ((hno w, wno w), wrel w))).foldl (fun d e => d.set e.1 e.2) st.2) := by
  induction ws with
  | nil => intro st; rfl
  | cons w ws ih => intro st; rw [List.foldl_cons, ih]; rfl

/-! ## The graph -/

theorem addNode_fold (ns : List (Nat × String)) : ∀ g : LGraph, ns.foldl (fun g e => addNode g e.1 e.2) g =
    ⟨(ns.map (fun e => (e.1, some e.2))).foldl (fun d e => d.set e.1 e.2) g.nodes, g.edges⟩ := by
  induction ns with
  | nil => intro g; rfl
  | cons e ns ih => intro g; rw [List.foldl_cons, ih]; rfl

theorem get?_touch (d : Dict Nat (Option String)) (v k : Nat) :
    Dict.get? (touch d v) k = (Dict.get? d k).or (if v = k then some none else none) := by
  unfold touch
  by_cases h : v ∈ Dict.keys d
  · rw [if_pos h]
    by_cases hk : v = k
    · subst hk
      obtain ⟨x, hx⟩ := Option.isSome_iff_exists.1 ((Dict.get?_isSome_iff d v).2 h)
      rw [hx]; rfl
    · rw [if_neg hk]; simp
  · rw [if_neg h, Dict.get?_set]
    by_cases hk : v = k
    · subst hk
      rw [(Dict.get?_eq_none_iff d v).2 h]
      simp
    · simp [hk]

theorem touch_wf {d : Dict Nat (Option String)} (h : Dict.WF d) (v : Nat) : Dict.WF (touch d v) := by
  unfold touch
  split
  · exact h
  · exact Dict.WF_set h _ _

theorem addEdge_fold (es : List ((Nat × Nat) × String)) : ∀ g : LGraph, Dict.WF g.nodes →
    (es.foldl (fun g e => addEdge g e.1 e.2) g).edges = es.foldl (fun d e => d.set e.1 e.2) g.edges ∧
    Dict.WF (es.foldl (fun g e => addEdge g e.1 e.2) g).nodes ∧
    ∀ k, Dict.get? (es.foldl (fun g e => addEdge g e.1 e.2) g).nodes k =
      (Dict.get? g.nodes k).or (if ∃ e ∈ es, e.1.1 = k ∨ e.1.2 = k then some none else none) := by
  induction es with
  | nil => intro g h; exact ⟨rfl, h, fun k => by simp⟩
  | cons e es ih =>
    intro g h
    obtain ⟨i1, i2, i3⟩ := ih (addEdge g e.1 e.2) (touch_wf (touch_wf h _) _)
    refine ⟨i1, i2, fun k => ?_⟩
    rw [List.foldl_cons, i3 k]
    show (Dict.get? (touch (touch g.nodes e.1.1) e.1.2) k).or _ = _
    rw [get?_touch, get?_touch, Option.or_assoc, Option.or_assoc]
    congr 1
    simp only [List.exists_mem_cons_iff]
    by_cases h1 : e.1.1 = k
    · simp only [h1, if_true, true_or]
      rfl
    · by_cases h2 : e.1.2 = k
      · simp only [h1, h2, if_true, if_false, or_true, true_or]
        rfl
      · simp only [h1, h2, if_false, or_self, false_or, Option.none_or]

/-- **C152.**  The graph of a sentence has one labelled node for each word, one node without label for each number that is only the head
of something (such as 0), and an edge with the relation from the head to each word.  Lines that do not have six fields are ignored. -/
theorem C152_read {ls : List Str} {ws : List Word6} (hw : Written ls ws) (hc : Counted ws) (hne : ls ≠ []) :
    ∃ g, sentenceGraph ls = .ok g ∧ Reads ws g := by
  unfold sentenceGraph
  rw [if_neg hne, lines_fold hw hc.idx hc.head]
  have hinj : (ws.map wno).Nodup := by
    have h0 := hc.distinct
    rw [List.Nodup, List.pairwise_map] at h0 ⊢
    refine h0.imp_of_mem ?_
    intro a b ha hb hab e
    apply hab
    have h1 := Int.toNat_of_nonneg (hc.idx a ha)
    have h2 := Int.toNat_of_nonneg (hc.idx b hb)
    have e : a.idx.toNat = b.idx.toNat := e
    rw [← h1, ← h2, e]
  have hN : (ws.map (fun w => (wno w, wlabel w))).foldl (fun d e => Dict.set d e.1 e.2) ([] : Dict Nat String) =
      ws.map (fun w => (wno w, wlabel w)) := ofPairs_nodup _ (by rw [List.map_map]; exact hinj)
  have hE : (ws.map (fun w => ((hno w, wno w), wrel w))).foldl (fun d e => Dict.set d e.1 e.2) ([] : Dict (Nat × Nat) String) =
      ws.map (fun w => ((hno w, wno w), wrel w)) := ofPairs_nodup _ (by
    rw [List.map_map]
    refine List.Nodup.of_map Prod.snd ?_
    rw [List.map_map]
    exact hinj)
  have hNs : (ws.map (fun w => (wno w, some (wlabel w)))).foldl (fun d e => Dict.set d e.1 e.2) ([] : Dict Nat (Option String)) =
      ws.map (fun w => (wno w, some (wlabel w))) := ofPairs_nodup _ (by rw [List.map_map]; exact hinj)
  refine ⟨_, rfl, ?_⟩
  rw [putWord_fold]
  show Reads ws (generate _ _)
  simp only [hN, hE]
  unfold generate
  rw [addNode_fold, List.map_map]
  have hWN : Dict.WF (ws.map (fun w => (wno w, some (wlabel w))) : Dict Nat (Option String)) := by
    unfold Dict.WF Dict.keys
    rw [List.map_map]
    exact hinj
  have hWE : Dict.WF (ws.map (fun w => ((hno w, wno w), wrel w)) : Dict (Nat × Nat) String) := by
    unfold Dict.WF Dict.keys
    rw [List.map_map]
    refine List.Nodup.of_map Prod.snd ?_
    rw [List.map_map]
    exact hinj
  have hg0 : (⟨(ws.map ((fun e : Nat × String => (e.1, some e.2)) ∘ fun w => (wno w, wlabel w))).foldl (fun d e => Dict.set d e.1 e.2) [], []⟩ : LGraph) =
      ⟨ws.map (fun w => (wno w, some (wlabel w))), []⟩ := by
    rw [← hNs]
    rfl
  simp only [hg0]
  obtain ⟨i1, i2, i3⟩ := addEdge_fold (ws.map (fun w => ((hno w, wno w), wrel w))) ⟨ws.map (fun w => (wno w, some (wlabel w))), []⟩ hWN
  rw [hE] at i1
  have hword : ∀ w ∈ ws, Dict.get? (ws.map (fun w => (wno w, some (wlabel w))) : Dict Nat (Option String)) (wno w) = some (some (wlabel w)) :=
    fun w h => Dict.get?_of_mem hWN (List.mem_map_of_mem (f := fun w => (wno w, some (wlabel w))) h)
  have hnone : ∀ v, (∀ w ∈ ws, v ≠ wno w) → Dict.get? (ws.map (fun w => (wno w, some (wlabel w))) : Dict Nat (Option String)) v = none := by
    intro v hv
    rw [Dict.get?_eq_none_iff]
    unfold Dict.keys
    rw [List.map_map]
    intro hm
    obtain ⟨w, hw, rfl⟩ := List.mem_map.1 hm
    exact hv w hw rfl
  have hends : ∀ v, (∃ e ∈ ws.map (fun w => ((hno w, wno w), wrel w)), e.1.1 = v ∨ e.1.2 = v) ↔ ∃ w ∈ ws, v = wno w ∨ v = hno w := by
    intro v
    constructor
    · rintro ⟨e, he, h⟩
      obtain ⟨w, hw, rfl⟩ := List.mem_map.1 he
      exact ⟨w, hw, h.elim (fun h => .inr h.symm) (fun h => .inl h.symm)⟩
    · rintro ⟨w, hw, h⟩
      exact ⟨_, List.mem_map_of_mem hw, h.elim (fun h => .inr h.symm) (fun h => .inl h.symm)⟩
  refine ⟨?_, ?_, ?_, ?_, i2, by rw [i1]; exact hWE⟩
  · intro w hw
    rw [i3, hword w hw]
    rfl
  · intro v
    rw [← Dict.get?_isSome_iff, i3, ← hends]
    by_cases hx : ∃ e ∈ ws.map (fun w => ((hno w, wno w), wrel w)), e.1.1 = v ∨ e.1.2 = v
    · rw [if_pos hx]
      refine ⟨fun _ => hx, fun _ => ?_⟩
      cases Dict.get? (ws.map (fun w => (wno w, some (wlabel w))) : Dict Nat (Option String)) v <;> rfl
    · rw [if_neg hx, hnone v (fun w hw e => hx ((hends v).2 ⟨w, hw, .inl e⟩))]
      exact ⟨fun h => (nomatch h), fun h => absurd h hx⟩
  · intro v
    rw [i3]
    by_cases hv : ∀ w ∈ ws, v ≠ wno w
    · rw [hnone v hv]
      by_cases hx : ∃ e ∈ ws.map (fun w => ((hno w, wno w), wrel w)), e.1.1 = v ∨ e.1.2 = v
      · rw [if_pos hx]
        obtain ⟨w, hw, h⟩ := (hends v).1 hx
        simp only [Option.none_or, true_iff]
        exact ⟨⟨w, hw, h.resolve_left (hv w hw)⟩, hv⟩
      · rw [if_neg hx]
        simp only [Option.none_or, reduceCtorEq, false_iff]
        rintro ⟨⟨w, hw, h⟩, _⟩
        exact hx ((hends v).2 ⟨w, hw, .inr h⟩)
    · constructor
      · intro h
        push Not at hv
        obtain ⟨w, hw, rfl⟩ := hv
        rw [hword w hw] at h
        cases h
      · rintro ⟨_, h⟩
        exact absurd h hv
  · intro e r
    rw [i1]
    constructor
    · intro h
      obtain ⟨w, hw, h⟩ := List.mem_map.1 (Dict.mem_of_get? h)
      cases h
      exact ⟨w, hw, rfl, rfl⟩
    · rintro ⟨w, hw, rfl, rfl⟩
      exact Dict.get?_of_mem hWE (List.mem_map_of_mem (f := fun w => ((hno w, wno w), wrel w)) hw)

/-- **C152** (the matcher can use it): the graph of a sentence has what `C150` and `C151` need. -/
theorem C152_worded {ws : List Word6} {g : LGraph} (R : Reads ws g) : Worded g := by
  have hw : ∀ u v, HasEdge g u v → ∃ w ∈ ws, u = hno w ∧ v = wno w := by
    intro u v h
    obtain ⟨r, hr⟩ := Option.isSome_iff_exists.1 ((Dict.get?_isSome_iff g.edges (u, v)).2 h)
    obtain ⟨w, hw, e, _⟩ := (R.edges _ _).1 hr
    exact ⟨w, hw, (Prod.mk.inj e).1, (Prod.mk.inj e).2⟩
  refine ⟨R.nodesWF, R.edgesWF, ?_, ?_⟩
  · intro u v h
    obtain ⟨w, hw, rfl, rfl⟩ := hw u v h
    exact ⟨(R.nodes _).2 ⟨w, hw, .inr rfl⟩, (R.nodes _).2 ⟨w, hw, .inl rfl⟩⟩
  · intro u v h
    obtain ⟨w, hw, rfl, rfl⟩ := hw u v h
    exact ⟨_, R.words w hw⟩

/-- **C152** (errors): no sentence is a `ValueError`. -/
theorem C152_empty : sentenceGraph [] = .error .valueError := rfl

/-- **C152** (errors): a number that is none is a `ValueError`. -/
theorem C152_not_a_number {ls : List Str} {ws : List Word6} (hw : Written ls ws) (hc : Counted ws) {form pos typ i h rel : Str}
    (hf : '\t' ∉ form) (hp : '\t' ∉ pos) (ht : '\t' ∉ typ) (hi : '\t' ∉ i) (hh : '\t' ∉ h) (hr : '\t' ∉ rel)
    (htr : Trimmed (form ++ '\t' :: (pos ++ '\t' :: (typ ++ '\t' :: (i ++ '\t' :: (h ++ '\t' :: rel)))))) (hbad : parseInt i = none ∨ parseInt h = none)
    (more : List Str) :
    sentenceGraph (ls ++ (form ++ '\t' :: (pos ++ '\t' :: (typ ++ '\t' :: (i ++ '\t' :: (h ++ '\t' :: rel))))) :: more) = .error .valueError := by
  unfold sentenceGraph
  rw [if_neg (by simp), List.foldlM_append, lines_fold hw hc.idx hc.head]
  simp only [bind, Except.bind, List.foldlM_cons]
  have hs : strip (form ++ '\t' :: (pos ++ '\t' :: (typ ++ '\t' :: (i ++ '\t' :: (h ++ '\t' :: rel))))) =
      form ++ '\t' :: (pos ++ '\t' :: (typ ++ '\t' :: (i ++ '\t' :: (h ++ '\t' :: rel)))) := by
    have := strip_pad (p := []) (q := []) (by intro c hc; cases hc) (by intro c hc; cases hc) htr
    simpa using this
  have hl : ∀ st, lineStep st (form ++ '\t' :: (pos ++ '\t' :: (typ ++ '\t' :: (i ++ '\t' :: (h ++ '\t' :: rel))))) = .error .valueError := by
    intro st
    unfold lineStep
    rw [hs, splitTab_append _ _ hf, splitTab_append _ _ hp, splitTab_append _ _ ht, splitTab_append _ _ hi, splitTab_append _ _ hh,
      splitTab_noTab _ hr]
    simp only [bind, Except.bind]
    rcases hbad with h | h
    · unfold natOf
      rw [h]
    · unfold natOf
      rw [h]
      split
      · rename_i e he
        split at he
        · cases he
        · cases he; rfl
      · rfl
  rw [hl]

/-- "boy eats apple" with a line that is no word. -/
def eatsW : List Word6 :=
  [⟨"boy".toList, "N".toList, "boy".toList, 1, 2, "nsubj".toList⟩, ⟨"eats".toList, "V".toList, "eat".toList, 2, 0, "root".toList⟩,
   ⟨"apple".toList, "N".toList, "apple".toList, 3, 2, "obj".toList⟩]

def eatsLines : List Str := ['<', 's', '>', '\n'] :: eatsW.map (fun w => w.text ++ ['\n']) ++ [['<', '/', 's', '>', '\n']]

/-- The hypotheses are met. -/
example : Counted eatsW ∧ Written eatsLines eatsW := by
  have hb : Blank [] := fun _ h => (nomatch h)
  have hn : Blank ['\n'] := by intro c hc; cases List.mem_singleton.1 hc; decide
  have hclean : ∀ w ∈ eatsW, w.Clean := by
    intro w hw
    simp only [eatsW, List.mem_cons, List.not_mem_nil, or_false] at hw
    rcases hw with rfl | rfl | rfl <;>
      exact ⟨by decide, by decide, by decide, by decide, ⟨⟨_, rfl, by decide⟩, ⟨_, rfl, by decide⟩⟩⟩
  have last : Written [['<', '/', 's', '>', '\n']] [] :=
    .skip (core := ['<', '/', 's', '>']) (p := []) (q := ['\n']) (.inr ⟨⟨_, rfl, by decide⟩, ⟨_, rfl, by decide⟩⟩) (by decide) hb hn .nil
  have key : ∀ l : List Word6, (∀ w ∈ l, w.Clean) → Written (l.map (fun w => w.text ++ ['\n']) ++ [['<', '/', 's', '>', '\n']]) l := by
    intro l
    induction l with
    | nil => intro _; exact last
    | cons w l ih => intro h; exact .word (p := []) (q := ['\n']) (h w (by simp)) hb hn (ih (fun x hx => h x (by simp [hx])))
  exact ⟨⟨by decide, by decide, by decide⟩,
    .skip (core := ['<', 's', '>']) (p := []) (q := ['\n']) (.inr ⟨⟨_, rfl, by decide⟩, ⟨_, rfl, by decide⟩⟩) (by decide) hb hn (key eatsW hclean)⟩

example : sentenceGraph eatsLines = .ok eatsL := by decide +kernel

end Verif.Dep.Basic
