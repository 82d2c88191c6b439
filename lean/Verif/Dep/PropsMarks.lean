import Verif.Dep.Marks

/-! # Property theorem C255 (what counts in the features of a template) -/

namespace Verif.Dep.Basic
open Verif.Py Verif.Dep

/-- Specification: the target of a feature, and target and filter when it was last marked. -/
structure Want where
  target : Int
  marked : Int
  filter : Dict Nat Bool

/-- Specification: what the features should be after a program. -/
def wantStep (ws : List Want) : MarkOp → List Want
  | .new t f => ws ++ [⟨t, t, f⟩]
  | .target i t => ws.modify i (fun w => { w with target := t })
  | .mark i f => ws.modify i (fun w => ⟨w.target, w.target, f⟩)

/-- Specification: the node is to be shown in the feature. -/
def Shown (w : Want) (v : Nat) : Prop := (v : Int) ≠ w.marked ∧ w.filter.get? v ≠ some false

/-- The graph object is the template, marked as wanted. -/
structure MarkedAs (template : LGraph) (w : Want) (c : Cell) : Prop where
  graph : c.graph = template
  nodes : ∀ v ∈ template.nodes.keys, ∃ b, c.nodeFlags.get? v = some b ∧ (b = true ↔ Shown w v)
  edges : ∀ e ∈ template.edges.keys, c.edgeFlags.get? e = some true

theorem foldl_set_get {κ ν : Type} [DecidableEq κ] (f : κ → ν) (ks : List κ) (d : Dict κ ν) (k : κ) :
    (ks.foldl (fun d v => d.set v (f v)) d).get? k = if k ∈ ks then some (f k) else d.get? k := by
  induction ks generalizing d with
  | nil => simp
  | cons a ks ih =>
    rw [List.foldl_cons, ih, Dict.get?_set]
    by_cases h : k ∈ ks
    · simp [h]
    · by_cases ha : a = k
      · subst ha; simp [h]
      · simp [h, ha, Ne.symm ha]

theorem nodeMark_iff (w : Want) (v : Nat) : nodeMark w.marked w.filter v = true ↔ Shown w v := by
  unfold nodeMark Shown
  by_cases h : (v : Int) = w.marked
  · simp [h]
  · rw [if_neg h]
    cases hf : w.filter.get? v with
    | none => simp [h]
    | some b => cases b <;> simp [h]

theorem markCell_marked {template : LGraph} {c : Cell} (h : c.graph = template) (w : Want) :
    MarkedAs template w (markCell w.marked w.filter c) := by
  subst h
  refine ⟨rfl, fun v hv => ⟨nodeMark w.marked w.filter v, ?_, nodeMark_iff w v⟩, fun e he => ?_⟩
  · show (c.graph.nodes.keys.foldl (fun d v => d.set v (nodeMark w.marked w.filter v)) c.nodeFlags).get? v = _
    rw [foldl_set_get (nodeMark w.marked w.filter), if_pos hv]
  · show (c.graph.edges.keys.foldl (fun d e => d.set e true) c.edgeFlags).get? e = _
    rw [foldl_set_get (fun _ => true), if_pos he]

theorem modify_get {α : Type} (l : List α) (f : α → α) (i j : Nat) : (l.modify i f)[j]? = if i = j then (l[j]?).map f else l[j]? := by
  rw [List.getElem?_modify]
  by_cases h : i = j
  · simp [h]
  · simp [h]

/-- What holds between the steps of a program. -/
structure MarkInv (template : LGraph) (ws : List Want) (s : Shop) : Prop where
  first : s.heap[0]? = some ⟨template, [], []⟩
  size : s.heap.length = ws.length + 1
  feats : s.feats.length = ws.length
  each : ∀ i w, ws[i]? = some w → s.feats[i]? = some (i + 1, w.target) ∧ ∃ c, s.heap[i + 1]? = some c ∧ MarkedAs template w c

theorem markStep_inv {template : LGraph} (hne : template.nodes ≠ []) {ws : List Want} {s : Shop} (h : MarkInv template ws s) (op : MarkOp) :
    ∃ s', markStep s op = .ok s' ∧ MarkInv template (wantStep ws op) s' := by
  obtain ⟨h1, h2, h3, h4⟩ := h
  cases op with
  | new t f =>
    refine ⟨_, by simp only [markStep, newFeature, copyGraph, h1, if_neg hne, bind, Except.bind]; rfl, ?_, ?_, ?_, ?_⟩
    · simp only [setFeatureAt]
      rw [modify_get, if_neg (by omega), List.getElem?_append_left (by omega), h1]
    · simp [setFeatureAt, wantStep, h2]
    · simp [setFeatureAt, wantStep, h3]
    · intro i w hw
      simp only [wantStep] at hw
      simp only [setFeatureAt]
      by_cases hi : i < ws.length
      · rw [List.getElem?_append_left hi] at hw
        obtain ⟨a, c, b1, b2⟩ := h4 i w hw
        refine ⟨by rw [List.getElem?_append_left (by omega)]; exact a, c, ?_, b2⟩
        rw [modify_get, if_neg (by omega), List.getElem?_append_left (by omega), b1]
      · have hi' : i = ws.length := by
          have := (List.getElem?_eq_some_iff.1 hw).1
          simp at this
          omega
        subst hi'
        simp at hw
        subst hw
        refine ⟨by simp [h2, ← h3], markCell t f ⟨template, [], []⟩, ?_, markCell_marked (c := ⟨template, [], []⟩) (w := ⟨t, t, f⟩) rfl⟩
        rw [modify_get, if_pos (by omega), ← h2]
        simp
  | target i t =>
    refine ⟨_, rfl, h1, by simp [wantStep, h2], by simp [wantStep, h3], ?_⟩
    intro j w hw
    simp only [wantStep] at hw
    rw [modify_get] at hw
    simp only
    by_cases hij : i = j
    · rw [if_pos hij] at hw
      obtain ⟨w0, hw0, e⟩ := Option.map_eq_some_iff.1 hw
      obtain ⟨a, c, b1, b2⟩ := h4 j w0 hw0
      subst e
      rw [modify_get, if_pos hij, a]
      exact ⟨rfl, c, b1, ⟨b2.graph, b2.nodes, b2.edges⟩⟩
    · rw [if_neg hij] at hw
      rw [modify_get, if_neg hij]
      exact h4 j w hw
  | mark i f =>
    cases hi : ws[i]? with
    | none =>
      have hf : s.feats[i]? = none := by rw [List.getElem?_eq_none_iff] at hi ⊢; omega
      refine ⟨s, by simp only [markStep, hf], ?_⟩
      have : wantStep ws (.mark i f) = ws := by
        simp only [wantStep]
        apply List.ext_getElem?
        intro j
        rw [modify_get]
        by_cases hij : i = j
        · subst hij; rw [hi]; simp
        · rw [if_neg hij]
      rw [this]
      exact ⟨h1, h2, h3, h4⟩
    | some w0 =>
      obtain ⟨a, c, b1, b2⟩ := h4 i w0 hi
      refine ⟨setFeatureAt s (i + 1) w0.target f, by simp only [markStep, a], ?_, by simp [setFeatureAt, wantStep, h2], by simp [setFeatureAt, wantStep, h3], ?_⟩
      · simp only [setFeatureAt]
        rw [modify_get, if_neg (by omega), h1]
      · intro j w hw
        simp only [wantStep] at hw
        rw [modify_get] at hw
        simp only [setFeatureAt]
        by_cases hij : i = j
        · rw [if_pos hij] at hw
          subst hij
          rw [hi] at hw
          cases hw
          exact ⟨a, _, by rw [modify_get, if_pos rfl, b1]; rfl, markCell_marked (w := ⟨w0.target, w0.target, f⟩) b2.graph⟩
        · rw [if_neg hij] at hw
          obtain ⟨a', c', b1', b2'⟩ := h4 j w hw
          exact ⟨a', c', by rw [modify_get, if_neg (by omega), b1'], b2'⟩

/-- **C255**: whatever a program does with the features of a template: the template stays as it is, and every feature has the graph of the
template, with the nodes marked by its own target and filter when it was last marked and all edges marked; `set_target` alone changes no
mark. -/
theorem C255_marks {template : LGraph} (hne : template.nodes ≠ []) (ops : List MarkOp) :
    ∃ s, markRun template ops = .ok s ∧ s.heap[0]? = some ⟨template, [], []⟩ ∧ s.feats.length = (ops.foldl wantStep []).length ∧
      ∀ (i : Nat) (w : Want), (ops.foldl wantStep [])[i]? = some w → ∃ (ref : Nat) (c : Cell), s.feats[i]? = some (ref, w.target) ∧ s.heap[ref]? = some c ∧
        MarkedAs template w c := by
  have key : ∀ (ops : List MarkOp) ws s, MarkInv template ws s → ∃ s', ops.foldlM markStep s = .ok s' ∧ MarkInv template (ops.foldl wantStep ws) s' := by
    intro ops
    induction ops with
    | nil => exact fun ws s h => ⟨s, rfl, h⟩
    | cons op ops ih =>
      intro ws s h
      obtain ⟨s1, e1, i1⟩ := markStep_inv hne h op
      obtain ⟨s2, e2, i2⟩ := ih _ _ i1
      refine ⟨s2, ?_, i2⟩
      rw [List.foldlM_cons, e1]
      exact e2
  obtain ⟨s, e, i⟩ := key ops [] ⟨[⟨template, [], []⟩], []⟩ ⟨rfl, rfl, rfl, by simp⟩
  refine ⟨s, e, i.first, i.feats, fun j w hw => ?_⟩
  obtain ⟨a, c, b1, b2⟩ := i.each j w hw
  exact ⟨j + 1, c, a, b1, b2⟩

/-- **C255**, empty templates: no feature can be made of a template without nodes. -/
theorem C255_empty {template : LGraph} (h : template.nodes = []) (t : Int) (f : Dict Nat Bool) (ops : List MarkOp) :
    markRun template (.new t f :: ops) = .error .attributeError := by
  unfold markRun
  rw [List.foldlM_cons]
  simp [markStep, newFeature, copyGraph, h, bind, Except.bind]

/-- Two features of one template with different targets; the target of the first is changed afterwards. -/
example : ∃ (s : Shop) (r : Nat) (c : Cell) (r' : Nat) (c' : Cell), markRun (generate [(1, "N"), (2, "V"), (3, "N")] [((2, 1), "su"), ((2, 3), "obj")])
      [.new 1 [(2, false)], .new 3 [], .target 0 2] = .ok s ∧
    s.feats[0]? = some (r, 2) ∧ s.heap[r]? = some c ∧ c.nodeFlags = [(1, false), (2, false), (3, true)] ∧
    s.feats[1]? = some (r', 3) ∧ s.heap[r']? = some c' ∧ c'.nodeFlags = [(1, true), (2, true), (3, false)] := by
  refine ⟨_, 1, _, 2, _, rfl, rfl, rfl, ?_, rfl, rfl, ?_⟩ <;> decide +kernel

end Verif.Dep.Basic
