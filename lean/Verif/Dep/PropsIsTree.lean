import Verif.Dep.PropsFile
import Mathlib.Data.List.Dedup

set_option linter.unusedSectionVars false

/-!
# C69: which sentences are trees
-/

namespace Verif.Dep
open Verif.Py

/-- What the documentation of networkx says of `is_tree` for directed graphs: there are nodes, one edge fewer than nodes, and the graph is
connected if the directions of its edges are ignored. -/
structure IsTree {α β : Type} (g : DG α β) : Prop where
  nonempty : g.nodes ≠ []
  count : g.nodes.length = g.edges.length + 1
  connected : ∀ u ∈ g.nodes.keys, ∀ v ∈ g.nodes.keys, Relation.ReflTransGen (fun a b => HasEdge g a b ∨ HasEdge g b a) u v

/-- Specification: all words of the sentence hang, directly or indirectly, from one index that is not the index of a word. -/
def HangsTogether (ws : List Word) : Prop :=
  ∃ r, (∀ w ∈ ws, w.id ≠ r) ∧ ∀ w ∈ ws, Relation.ReflTransGen (Heads ws) r w.id

section
variable {f : LineFormat} {ea : List String} {ws : List Word} {g : Graph}

theorem represents_edges (P : Represents f ea ws g) (hid : (ws.map Word.id).Nodup) : g.edges.length = ws.length := by
  have h : g.edges.keys.Perm (ws.map (fun w => (w.head, w.id))) := by
    rw [List.perm_ext_iff_of_nodup P.edgesWF]
    · intro e
      rw [show e ∈ g.edges.keys ↔ HasEdge g e.1 e.2 from Iff.rfl, P.edgeIff, List.mem_map]
      constructor
      · rintro ⟨w, hw, h1, h2⟩
        exact ⟨w, hw, Prod.ext h1.symm h2.symm⟩
      · rintro ⟨w, hw, rfl⟩
        exact ⟨w, hw, rfl, rfl⟩
    · apply List.Nodup.of_map Prod.snd
      rw [List.map_map]
      exact hid
  have := h.length_eq
  rwa [List.length_map, Dict.keys, List.length_map] at this

/-- The heads that are no words. -/
def outerHeads (ws : List Word) : List Nat := ((ws.map Word.head).filter (fun x => decide (x ∉ ws.map Word.id))).dedup

theorem mem_outerHeads {x : Nat} : x ∈ outerHeads ws ↔ (∃ w ∈ ws, x = w.head) ∧ ∀ w ∈ ws, w.id ≠ x := by
  unfold outerHeads
  rw [List.mem_dedup, List.mem_filter, decide_eq_true_eq, List.mem_map, List.mem_map]
  constructor
  · rintro ⟨⟨w, hw, rfl⟩, h⟩
    exact ⟨⟨w, hw, rfl⟩, fun v hv e => h ⟨v, hv, e⟩⟩
  · rintro ⟨⟨w, hw, rfl⟩, h⟩
    exact ⟨⟨w, hw, rfl⟩, fun ⟨v, hv, e⟩ => h v hv e⟩

theorem represents_nodes (P : Represents f ea ws g) (hid : (ws.map Word.id).Nodup) : g.nodes.length = ws.length + (outerHeads ws).length := by
  have h : g.nodes.keys.Perm (ws.map Word.id ++ outerHeads ws) := by
    rw [List.perm_ext_iff_of_nodup P.nodesWF]
    · intro x
      rw [P.nodeIff, List.mem_append, mem_outerHeads, List.mem_map]
      constructor
      · rintro ⟨w, hw, rfl | rfl⟩
        · exact .inl ⟨w, hw, rfl⟩
        · by_cases h : ∃ v ∈ ws, v.id = w.head
          · exact .inl h
          · exact .inr ⟨⟨w, hw, rfl⟩, fun v hv e => h ⟨v, hv, e⟩⟩
      · rintro (⟨w, hw, rfl⟩ | ⟨⟨w, hw, rfl⟩, _⟩)
        · exact ⟨w, hw, .inl rfl⟩
        · exact ⟨w, hw, .inr rfl⟩
    · rw [List.nodup_append]
      refine ⟨hid, List.nodup_dedup _, ?_⟩
      intro a ha b hb e
      obtain ⟨w, hw, rfl⟩ := List.mem_map.1 ha
      exact (mem_outerHeads.1 hb).2 w hw e
  have := h.length_eq
  rwa [List.length_append, List.length_map, Dict.keys, List.length_map] at this

/-- If the words hang from `r`, then `r` is the only head that is no word. -/
theorem outerHeads_of_hangs (hne : ws ≠ []) (hid : (ws.map Word.id).Nodup) {r : Nat} (h0 : ∀ w ∈ ws, w.id ≠ r)
    (hr : ∀ w ∈ ws, Relation.ReflTransGen (Heads ws) r w.id) : outerHeads ws = [r] := by
  have hmem : ∀ x, x ∈ outerHeads ws ↔ x = r := by
    intro x
    rw [mem_outerHeads]
    constructor
    · rintro ⟨⟨w, hw, rfl⟩, hx⟩
      rcases Relation.ReflTransGen.cases_tail (hr w hw) with h | ⟨u, hu, y, hy, rfl, he⟩
      · exact absurd h (h0 w hw)
      · rw [List.inj_on_of_nodup_map hid hw hy he] at hx ⊢
        rcases Relation.ReflTransGen.cases_tail hu with h | ⟨v, _, z, hz, _, he'⟩
        · exact h
        · exact absurd he'.symm (hx z hz)
    · rintro rfl
      refine ⟨?_, h0⟩
      obtain ⟨w, ws', rfl⟩ := List.exists_cons_of_ne_nil hne
      rcases Relation.ReflTransGen.cases_head (hr w (List.mem_cons_self ..)) with h | ⟨v, ⟨y, hy, h, _⟩, _⟩
      · exact absurd h.symm (h0 w (List.mem_cons_self ..))
      · exact ⟨y, hy, h⟩
  have hn : (outerHeads ws).Nodup := List.nodup_dedup _
  have : (outerHeads ws).Perm [r] := by
    rw [List.perm_ext_iff_of_nodup hn (List.nodup_singleton r)]
    intro x
    rw [hmem, List.mem_singleton]
  exact List.perm_singleton.1 this

/-- **C69**: the graph of a sentence is a tree, as networkx has it, exactly if all words hang from one index that is no word; this is the
case for the sentences whose words all lead to the artificial head 0. -/
theorem C69_tree_exact (P : Represents f ea ws g) (hne : ws ≠ []) (hid : (ws.map Word.id).Nodup) : IsTree g ↔ HangsTogether ws := by
  have hE : ∀ u v, HasEdge g u v ↔ Heads ws u v := P.edgeIff
  have hc := represents_edges P hid
  have hn := represents_nodes P hid
  constructor
  · intro T
    have h1 : (outerHeads ws).length = 1 := by have := T.count; omega
    obtain ⟨r, hr⟩ := List.length_eq_one_iff.1 h1
    obtain ⟨⟨w0, hw0, hr0⟩, hout⟩ := mem_outerHeads.1 (show r ∈ outerHeads ws by rw [hr]; simp)
    refine ⟨r, hout, fun w hw => ?_⟩
    have hp := T.connected r ((P.nodeIff r).2 ⟨w0, hw0, .inr hr0⟩) w.id ((P.nodeIff _).2 ⟨w, hw, .inl rfl⟩)
    generalize w.id = x at hp
    induction hp with
    | refl => exact .refl
    | tail _ h ih =>
      rcases h with h | h
      · exact ih.tail ((hE _ _).1 h)
      · obtain ⟨y, hy, rfl, hyid⟩ := (hE _ _).1 h
        rcases Relation.ReflTransGen.cases_tail ih with h | ⟨u, hu, z, hz, rfl, he⟩
        · exact absurd (h ▸ hyid).symm (hout y hy)
        · rw [hyid] at he
          rw [List.inj_on_of_nodup_map hid hy hz he]
          exact hu
  · rintro ⟨r, h0, hr⟩
    have ho := outerHeads_of_hangs hne hid h0 hr
    have hrn : ∀ x ∈ g.nodes.keys, Relation.ReflTransGen (Heads ws) r x := by
      intro x hx
      obtain ⟨w, hw, rfl | rfl⟩ := (P.nodeIff x).1 hx
      · exact hr w hw
      · rcases Relation.ReflTransGen.cases_tail (hr w hw) with h | ⟨u, hu, y, hy, rfl, he⟩
        · exact absurd h (h0 w hw)
        · rw [List.inj_on_of_nodup_map hid hw hy he]
          exact hu
    have hdown : ∀ x ∈ g.nodes.keys, Relation.ReflTransGen (fun a b => HasEdge g a b ∨ HasEdge g b a) r x := by
      intro x hx
      exact Relation.ReflTransGen.mono (fun u v huv => .inl ((hE u v).2 huv)) _ _ (hrn x hx)
    refine ⟨?_, by rw [hn, hc, ho]; rfl, ?_⟩
    · intro e
      rw [e, ho] at hn
      simp at hn
    · intro u hu v hv
      refine Relation.ReflTransGen.trans ?_ (hdown v hv)
      have := hdown u hu
      clear hu hv
      induction this with
      | refl => exact .refl
      | tail _ h ih => exact Relation.ReflTransGen.head h.symm ih

end

/-- A cycle of two words beside a word that hangs from 0: not a tree. -/
example : ¬ HangsTogether [⟨1, "", 1, 0, fun _ => ""⟩, ⟨2, "", 2, 3, fun _ => ""⟩, ⟨3, "", 3, 2, fun _ => ""⟩] := by
  rintro ⟨r, h0, hr⟩
  have key : ∀ x, Relation.ReflTransGen (Heads [⟨1, "", 1, 0, fun _ => ""⟩, ⟨2, "", 2, 3, fun _ => ""⟩, ⟨3, "", 3, 2, fun _ => ""⟩]) r x →
      (x = 2 ∨ x = 3) → False := by
    intro x h
    induction h with
    | refl =>
      rintro (rfl | rfl)
      · exact h0 ⟨2, "", 2, 3, fun _ => ""⟩ (by simp) rfl
      · exact h0 ⟨3, "", 3, 2, fun _ => ""⟩ (by simp) rfl
    | tail _ h ih =>
      obtain ⟨w, hw, rfl, rfl⟩ := h
      simp only [List.mem_cons, List.not_mem_nil, or_false] at hw
      rcases hw with rfl | rfl | rfl
      · rintro (h | h) <;> cases h
      · exact fun _ => ih (.inr rfl)
      · exact fun _ => ih (.inl rfl)
  exact key 2 (hr ⟨2, "", 2, 3, fun _ => ""⟩ (by simp)) (.inl rfl)

/-- Two words hanging from 0, one of them with a dependent. -/
example : HangsTogether [⟨1, "", 1, 0, fun _ => ""⟩, ⟨2, "", 2, 0, fun _ => ""⟩, ⟨3, "", 3, 2, fun _ => ""⟩] := by
  refine ⟨0, by decide, ?_⟩
  have e2 : Relation.ReflTransGen (Heads [⟨1, "", 1, 0, fun _ => ""⟩, ⟨2, "", 2, 0, fun _ => ""⟩, ⟨3, "", 3, 2, fun _ => ""⟩]) 0 2 :=
    .single ⟨⟨2, "", 2, 0, fun _ => ""⟩, by simp, rfl, rfl⟩
  intro w hw
  simp only [List.mem_cons, List.not_mem_nil, or_false] at hw
  rcases hw with rfl | rfl | rfl
  · exact .single ⟨⟨1, "", 1, 0, fun _ => ""⟩, by simp, rfl, rfl⟩
  · exact e2
  · exact e2.tail ⟨⟨3, "", 3, 2, fun _ => ""⟩, by simp, rfl, rfl⟩

end Verif.Dep
