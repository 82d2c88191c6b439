import Verif.Dep.DepLines
import Verif.Dep.PropsRawGraph

/-! # Property theorem C254 (the graph of a list of dependencies) -/

namespace Verif.Dep
open Verif.Py Verif.Vocab.Plain

/-- A dependency: the numbers of two nodes as text, and the relation. -/
structure Dpd where
  src : Str
  rel : Str
  tgt : Str

/-- The line for a dependency, with white space around it. -/
structure DpdLine (d : Dpd) (l : Str) : Prop where
  src : ',' ∉ d.src
  rel : ',' ∉ d.rel
  tgt : ',' ∉ d.tgt
  trim : Trimmed (d.src ++ ',' :: (d.rel ++ ',' :: d.tgt))
  text : ∃ p q, Blank p ∧ Blank q ∧ l = p ++ (d.src ++ ',' :: (d.rel ++ ',' :: d.tgt)) ++ q

/-- The dependency joins two nodes, in either direction, when numbers stand for names. -/
def Dpd.joins (nm : Str → Str) (u v : Str) (d : Dpd) : Bool :=
  decide ((nm d.src = u ∧ nm d.tgt = v) ∨ (nm d.src = v ∧ nm d.tgt = u))

theorem depLine_text {d : Dpd} {l : Str} (h : DpdLine d l) : depLine l = some (d.src, d.rel, d.tgt) := by
  obtain ⟨p, q, hp, hq, rfl⟩ := h.text
  unfold depLine
  rw [strip_pad hp hq h.trim, splitComma_append h.src, splitComma_append h.rel, splitComma_none h.tgt]

theorem splitComma_length (s : Str) : (splitComma s).length = s.count ',' + 1 := by
  induction s with
  | nil => rfl
  | cons c s ih =>
    rw [splitComma]
    by_cases h : c = ','
    · subst h; simp [ih]
    · rw [if_neg h, List.count_cons_of_ne h, ← ih]
      cases hs : splitComma s with
      | nil => rw [hs] at ih; simp at ih
      | cons a t => simp

theorem depLine_none {l core p q : Str} (hl : l = p ++ core ++ q) (hp : Blank p) (hq : Blank q) (hc : core = [] ∨ Trimmed core)
    (hn : core.count ',' ≠ 2) : depLine l = none := by
  have hs : strip l = core := by
    subst hl
    rcases hc with rfl | h
    · rw [List.append_nil]; exact strip_blank hp hq
    · exact strip_pad hp hq h
  have hlen := splitComma_length core
  unfold depLine
  rw [hs]
  split
  · next h => rw [h] at hlen; simp at hlen; omega
  · rfl

theorem joinNodes_eq (g : UG) (u v r : Str) : joinNodes g u v r = (g.addNode u |>.addNode v).addEdge u v r := by
  unfold joinNodes
  simp only
  split
  · next h => rw [show (g.addNode u).addNode v = g.addNode u by unfold UG.addNode at *; split <;> simp_all]
  · rfl

theorem addNode_edges (g : UG) (u : Str) : (g.addNode u).edges = g.edges := by
  unfold UG.addNode; split <;> rfl

theorem joinNodes_spec {g : UG} (hg : g.OneWay) (hnd : g.nodes.Nodup) (a b r : Str) :
    (joinNodes g a b r).OneWay ∧ (joinNodes g a b r).nodes.Nodup ∧ (∀ x, x ∈ (joinNodes g a b r).nodes ↔ x ∈ g.nodes ∨ x = a ∨ x = b) ∧
    ∀ u v, (joinNodes g a b r).rel u v = if (a = u ∧ b = v) ∨ (a = v ∧ b = u) then some r else g.rel u v := by
  rw [joinNodes_eq]
  have ho : ((g.addNode a).addNode b).OneWay := by
    intro x y; rw [addNode_edges, addNode_edges]; exact hg x y
  refine ⟨oneWay_addEdge ho _ _ _, ?_, ?_, ?_⟩
  · exact nodup_addNode _ (nodup_addNode _ (nodup_addNode _ (nodup_addNode _ hnd)))
  · intro x
    show x ∈ ((((g.addNode a).addNode b).addNode a).addNode b).nodes ↔ _
    simp only [mem_addNode]
    tauto
  · intro u v
    rw [rel_addEdge ho]
    unfold UG.rel
    rw [addNode_edges, addNode_edges]

/-- **C254**: building a graph from the lines of dependencies whose nodes have names adds exactly the named nodes; two nodes are joined by the
relation of the last dependency between them, in either direction, and else as before. -/
theorem C254_graph {ids : Dict Str Str} {nm : Str → Str} {ds : List Dpd} {ls : List Str} (hl : List.Forall₂ DpdLine ds ls)
    (hi : ∀ d ∈ ds, ids.get? d.src = some (nm d.src) ∧ ids.get? d.tgt = some (nm d.tgt)) {g : UG} (hg : g.OneWay) (hnd : g.nodes.Nodup) :
    ∃ g', buildDeps ids g ls = (.ok (), g') ∧ g'.OneWay ∧ g'.nodes.Nodup ∧
      (∀ x, x ∈ g'.nodes ↔ x ∈ g.nodes ∨ ∃ d ∈ ds, x = nm d.src ∨ x = nm d.tgt) ∧
      ∀ u v, g'.rel u v = match ds.reverse.find? (Dpd.joins nm u v) with
        | some d => some d.rel
        | none => g.rel u v := by
  induction hl generalizing g with
  | nil => exact ⟨g, rfl, hg, hnd, by simp, by simp⟩
  | @cons d l ds ls h _ ih =>
    obtain ⟨i1, i2⟩ := hi d (by simp)
    obtain ⟨j1, j2, j3, j4⟩ := joinNodes_spec hg hnd (nm d.src) (nm d.tgt) d.rel
    obtain ⟨g', a1, a2, a3, a4, a5⟩ := ih (fun x hx => hi x (by simp [hx])) j1 j2
    refine ⟨g', ?_, a2, a3, ?_, ?_⟩
    · rw [buildDeps, depLine_text h]
      simp only [i1, i2]
      exact a1
    · intro x
      rw [a4, j3]
      simp only [List.mem_cons, exists_eq_or_imp, or_assoc]
    · intro u v
      rw [a5, List.reverse_cons, List.find?_append]
      cases hf : ds.reverse.find? (Dpd.joins nm u v) with
      | some y => simp
      | none =>
        simp only [Option.none_or]
        rw [j4]
        by_cases hj : (nm d.src = u ∧ nm d.tgt = v) ∨ (nm d.src = v ∧ nm d.tgt = u)
        · rw [if_pos hj]
          have : Dpd.joins nm u v d = true := by unfold Dpd.joins; exact decide_eq_true hj
          simp [this]
        · rw [if_neg hj]
          have : Dpd.joins nm u v d = false := by unfold Dpd.joins; exact decide_eq_false hj
          simp [this]

/-- The line is no dependency: it has not exactly two commas. -/
def NoDpd (l : Str) : Prop := ∃ p core q, l = p ++ core ++ q ∧ Blank p ∧ Blank q ∧ (core = [] ∨ Trimmed core) ∧ core.count ',' ≠ 2

/-- The lines before a failing one. -/
theorem buildDeps_append {ids : Dict Str Str} {g g' : UG} {ls : List Str} (h : buildDeps ids g ls = (.ok (), g')) (rest : List Str) :
    buildDeps ids g (ls ++ rest) = buildDeps ids g' rest := by
  induction ls generalizing g with
  | nil => rw [buildDeps] at h; cases h; rfl
  | cons l ls ih =>
    rw [buildDeps] at h
    rw [List.cons_append, buildDeps]
    cases hd : depLine l with
    | none => rw [hd] at h; cases h
    | some t =>
      obtain ⟨a, r, b⟩ := t
      rw [hd] at h
      simp only at h ⊢
      cases ha : ids.get? a with
      | none => rw [ha] at h; cases h
      | some u =>
        rw [ha] at h
        simp only at h ⊢
        cases hb : ids.get? b with
        | none => rw [hb] at h; cases h
        | some v => rw [hb] at h; exact ih h

/-- **C254**, errors: a line that is no dependency is a `ValueError`, a node without a name a `KeyError`; the graph is then that of the
lines before, and the lines after it do not matter. -/
theorem C254_stop {ids : Dict Str Str} {g g' : UG} {ls : List Str} (hb : buildDeps ids g ls = (.ok (), g')) (rest : List Str) :
    (∀ l, NoDpd l → buildDeps ids g (ls ++ l :: rest) = (.error .valueError, g')) ∧
    ∀ l d, DpdLine d l → (ids.get? d.src = none ∨ ids.get? d.tgt = none) → buildDeps ids g (ls ++ l :: rest) = (.error .keyError, g') := by
  refine ⟨fun l ⟨p, core, q, e, hp, hq, hc, hn⟩ => ?_, fun l d hd hi => ?_⟩
  · rw [buildDeps_append hb, buildDeps, depLine_none e hp hq hc hn]
  · rw [buildDeps_append hb, buildDeps, depLine_text hd]
    rcases hi with h | h
    · simp only [h]
    · simp only [h]
      split <;> rfl

/-- Names of three nodes. -/
def dlIds : Dict Str Str := [("1".toList, "cat/N".toList), ("2".toList, "see/V".toList), ("3".toList, "dog/N".toList)]

/-- The relation given last counts, whatever the direction. -/
example : ∃ g, buildDeps dlIds ⟨[], []⟩ ["1,su,2\n".toList, "3,obj,2\n".toList, "2,x,1".toList] = (.ok (), g) ∧
    g.nodes = ["cat/N".toList, "see/V".toList, "dog/N".toList] ∧ g.rel "cat/N".toList "see/V".toList = some "x".toList ∧
    g.rel "see/V".toList "dog/N".toList = some "obj".toList ∧ g.rel "cat/N".toList "dog/N".toList = none := by
  refine ⟨_, rfl, ?_⟩
  decide +kernel

/-- These lines meet the hypotheses of `C254_graph`. -/
example : ∃ g, buildDeps dlIds ⟨[], []⟩ ["1,su,2\n".toList, " 2,x,1".toList] = (.ok (), g) ∧ g.rel "cat/N".toList "see/V".toList = some "x".toList := by
  let nm : Str → Str := fun s => (dlIds.get? s).getD []
  obtain ⟨g, h1, _, _, _, h2⟩ := C254_graph (ids := dlIds) (nm := nm) (g := ⟨[], []⟩)
    (ds := [⟨"1".toList, "su".toList, "2".toList⟩, ⟨"2".toList, "x".toList, "1".toList⟩]) (ls := ["1,su,2\n".toList, " 2,x,1".toList])
    (.cons ⟨by decide, by decide, by decide, ⟨⟨'1', rfl, by decide⟩, '2', rfl, by decide⟩, [], ['\n'], by simp [Blank], by simp [Blank]; decide, rfl⟩
      (.cons ⟨by decide, by decide, by decide, ⟨⟨'2', rfl, by decide⟩, '1', rfl, by decide⟩, [' '], [], by simp [Blank]; decide, by simp [Blank], rfl⟩ .nil))
    (by decide +kernel) (by intro u v h; cases h) (by simp)
  refine ⟨g, h1, ?_⟩
  rw [h2]
  rfl

/-- A line with a missing name ends the loop and leaves the graph of the lines before. -/
example (rest : List Str) : ∃ g, buildDeps dlIds ⟨[], []⟩ ("1,su,2".toList :: "1,mod,9".toList :: rest) = (.error .keyError, g) ∧
    g.nodes = ["cat/N".toList, "see/V".toList] := by
  refine ⟨_, (C254_stop (ids := dlIds) (g := ⟨[], []⟩) (ls := ["1,su,2".toList]) rfl rest).2 "1,mod,9".toList ⟨"1".toList, "mod".toList, "9".toList⟩
    ⟨by decide, by decide, by decide, ⟨⟨'1', rfl, by decide⟩, '9', rfl, by decide⟩, [], [], by simp [Blank], by simp [Blank], rfl⟩ (.inr (by decide)), ?_⟩
  decide +kernel

end Verif.Dep
