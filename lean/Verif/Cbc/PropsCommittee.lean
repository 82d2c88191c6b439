import Verif.Cbc.PropsRounds

/-!
# C76: what step 2 of CBC makes of the cleaned clusters
-/

set_option linter.unusedSectionVars false

namespace Verif.Cbc

open Verif.Py

variable {K E V : Type} [Field K] [LinearOrder K] [LinearOrder E]

/-! ## Specification -/

/-- Contract of `np.argsort` on one row. -/
def SortsRow (argsort : List K → List Nat) : Prop :=
  ∀ l, (argsort l).Perm (List.range l.length) ∧
    (argsort l).Pairwise (fun a b => ∀ x y, l[a]? = some x → l[b]? = some y → x ≤ y)

/-- Committee number `k` is the first among the committees most similar to element `e`, and its similarity
reaches theta1. -/
def BestCommittee (c : Clustering K E V) (elements : List E) (merged : List (List E)) (e : E) (k : Nat) : Prop :=
  ∃ m, merged[k]? = some m ∧ c.theta1 ≤ c.cos (c.rowVec e) (c.commVec elements m) ∧
    (∀ m' ∈ merged, c.cos (c.rowVec e) (c.commVec elements m') ≤ c.cos (c.rowVec e) (c.commVec elements m)) ∧
    (∀ k' : Nat, k' < k → ∀ m', merged[k']? = some m' →
      c.cos (c.rowVec e) (c.commVec elements m') < c.cos (c.rowVec e) (c.commVec elements m))

/-! ## `argmax` -/

/-- `b` is the first largest entry of `l` with its position. -/
def FirstMax (l : List K) (b : K × Nat) : Prop :=
  l[b.2]? = some b.1 ∧ (∀ y ∈ l, y ≤ b.1) ∧ ∀ k : Nat, k < b.2 → ∀ y, l[k]? = some y → y < b.1

theorem FirstMax.push {l : List K} {b : K × Nat} (h : FirstMax l b) (x : K) :
    FirstMax (l ++ [x]) (if b.1 < x then (x, l.length) else b) := by
  obtain ⟨h1, h2, h3⟩ := h
  have hlt : b.2 < l.length := (List.getElem?_eq_some_iff.1 h1).1
  split
  · next hx =>
    refine ⟨by simp, ?_, ?_⟩
    · intro y hy
      rcases List.mem_append.1 hy with hy | hy
      · exact le_of_lt (lt_of_le_of_lt (h2 y hy) hx)
      · rw [List.mem_singleton.1 hy]
    · intro k hk y hy
      rw [List.getElem?_append_left hk] at hy
      exact lt_of_le_of_lt (h2 y (List.mem_of_getElem? hy)) hx
  · next hx =>
    refine ⟨?_, ?_, ?_⟩
    · rw [List.getElem?_append_left hlt]; exact h1
    · intro y hy
      rcases List.mem_append.1 hy with hy | hy
      · exact h2 y hy
      · rw [List.mem_singleton.1 hy]; exact not_lt.1 hx
    · intro k hk y hy
      rw [List.getElem?_append_left (by omega)] at hy
      exact h3 k hk y hy

theorem argmax_loop (l pre : List K) (b : K × Nat) (h : FirstMax pre b) :
    FirstMax (pre ++ l) ((l.zipIdx pre.length).foldl
      (fun (b : K × Nat) p => if b.1 < p.1 then p else b) b) := by
  induction l generalizing pre b with
  | nil => simpa using h
  | cons x l ih =>
    have h' := h.push x
    have := ih (pre ++ [x]) _ h'
    rw [List.append_assoc, List.singleton_append, List.length_append, List.length_singleton] at this
    rw [List.zipIdx_cons, List.foldl_cons]
    exact this

theorem argmax_spec {l : List K} (h : l ≠ []) : ∃ x, FirstMax l (x, argmax l) := by
  cases l with
  | nil => exact absurd rfl h
  | cons a l =>
    have h0 : FirstMax [a] (a, 0) := ⟨rfl, by simp, by simp⟩
    have := argmax_loop l [a] (a, 0) h0
    exact ⟨_, this⟩

/-- The first largest entry is unique. -/
theorem FirstMax.unique {l : List K} {b b' : K × Nat} (h : FirstMax l b) (h' : FirstMax l b') : b = b' := by
  obtain ⟨h1, h2, h3⟩ := h
  obtain ⟨h1', h2', h3'⟩ := h'
  have e1 : b.1 = b'.1 := le_antisymm (h2' _ (List.mem_of_getElem? h1)) (h2 _ (List.mem_of_getElem? h1'))
  have e2 : b.2 = b'.2 := by
    rcases Nat.lt_trichotomy b.2 b'.2 with h | h | h
    · exact absurd (h3' b.2 h b.1 h1) (by rw [e1]; exact lt_irrefl _)
    · exact h
    · exact absurd (h3 b'.2 h b'.1 h1') (by rw [e1]; exact lt_irrefl _)
  exact Prod.ext e1 e2

/-! ## Attaching singletons -/

/-- The committee a singleton goes to. -/
def target (c : Clustering K E V) (vecs : List V) (e : E) : Option Nat :=
  let sims := vecs.map (c.cos (c.rowVec e))
  match sims[argmax sims]? with
  | none => none
  | some s => if c.theta1 ≤ s then some (argmax sims) else none

theorem attach_ok {c : Clustering K E V} {vecs : List V} {rows : List E} {comms out : List (List Nat)} {sid : Nat}
    (h : attach c vecs rows comms sid = .ok out) :
    ∃ e, rows[sid]? = some e ∧ out = match target c vecs e with
      | some k => comms.modify k (· ++ [sid])
      | none => comms := by
  unfold attach at h
  cases hr : rows[sid]? with
  | none => rw [hr] at h; exact (nomatch h)
  | some e =>
    refine ⟨e, rfl, ?_⟩
    rw [hr] at h
    simp only at h
    unfold target
    simp only
    cases hs : (vecs.map (c.cos (c.rowVec e)))[argmax (vecs.map (c.cos (c.rowVec e)))]? with
    | none => rw [hs] at h; exact (nomatch h)
    | some s =>
      rw [hs] at h
      simp only at h ⊢
      by_cases ht : c.theta1 ≤ s
      · rw [if_pos ht] at h ⊢
        exact (Except.ok.inj h).symm
      · rw [if_neg ht] at h ⊢
        exact (Except.ok.inj h).symm

/-- The singletons that go to committee `k`. -/
def goesTo (c : Clustering K E V) (vecs : List V) (rows : List E) (k sid : Nat) : Bool :=
  match rows[sid]? with
  | none => false
  | some e => decide (target c vecs e = some k)

theorem attach_loop {c : Clustering K E V} {vecs : List V} {rows : List E} (sgl : List Nat) :
    ∀ {comms out : List (List Nat)}, sgl.foldlM (attach c vecs rows) comms = .ok out →
      ∀ k, out[k]? = (comms[k]?).map (· ++ sgl.filter (goesTo c vecs rows k)) := by
  induction sgl with
  | nil =>
    intro comms out h k
    obtain rfl := Except.ok.inj h
    simp
  | cons s sgl ih =>
    intro comms out h k
    rw [List.foldlM_cons] at h
    obtain ⟨mid, h1, h2⟩ := bind_ok h
    obtain ⟨e, he, hm⟩ := attach_ok h1
    rw [ih h2 k, List.filter_cons]
    have hg : goesTo c vecs rows k s = decide (target c vecs e = some k) := by
      unfold goesTo
      rw [he]
    rw [hg, hm]
    cases ht : target c vecs e with
    | none => simp
    | some j =>
      simp only [Option.some.injEq, decide_eq_true_eq]
      rw [List.getElem?_modify]
      by_cases hjk : j = k
      · simp only [hjk, if_true]
        cases comms[k]? <;> simp
      · simp only [hjk, if_false]
        cases comms[k]? <;> simp

theorem target_iff (c : Clustering K E V) (elements : List E) (merged : List (List E)) (e : E) (k : Nat) :
    target c (merged.map (c.commVec elements)) e = some k ↔ BestCommittee c elements merged e k := by
  unfold target BestCommittee
  simp only
  generalize hS : (merged.map (c.commVec elements)).map (c.cos (c.rowVec e)) = sims
  have hget : ∀ k : Nat, sims[k]? = (merged[k]?).map (fun m => c.cos (c.rowVec e) (c.commVec elements m)) := by
    intro k
    rw [← hS]
    simp
    rfl
  have hmem : ∀ y, y ∈ sims ↔ ∃ m ∈ merged, c.cos (c.rowVec e) (c.commVec elements m) = y := by
    intro y
    rw [← hS]
    simp
  have hfirst : ∀ x k, FirstMax sims (x, k) ↔ ∃ m, merged[k]? = some m ∧
      x = c.cos (c.rowVec e) (c.commVec elements m) ∧
      (∀ m' ∈ merged, c.cos (c.rowVec e) (c.commVec elements m') ≤ c.cos (c.rowVec e) (c.commVec elements m)) ∧
      (∀ k' : Nat, k' < k → ∀ m', merged[k']? = some m' →
        c.cos (c.rowVec e) (c.commVec elements m') < c.cos (c.rowVec e) (c.commVec elements m)) := by
    intro x k
    unfold FirstMax
    simp only [hget, hmem]
    constructor
    · rintro ⟨h1, h2, h3⟩
      obtain ⟨m, hm, rfl⟩ := Option.map_eq_some_iff.1 h1
      exact ⟨m, hm, rfl, fun m' hm' => h2 _ ⟨m', hm', rfl⟩,
        fun k' hk' m' hm' => h3 k' hk' _ (by rw [hm']; rfl)⟩
    · rintro ⟨m, hm, rfl, h2, h3⟩
      refine ⟨by rw [hm]; rfl, ?_, ?_⟩
      · rintro y ⟨m', hm', rfl⟩
        exact h2 m' hm'
      · intro k' hk' y hy
        obtain ⟨m', hm', rfl⟩ := Option.map_eq_some_iff.1 hy
        exact h3 k' hk' m' hm'
  by_cases hnil : sims = []
  · have hno : ∀ k : Nat, merged[k]? = none := by
      intro k
      have := hget k
      rw [hnil] at this
      simp only [List.getElem?_nil] at this
      exact Option.map_eq_none_iff.1 this.symm
    rw [hnil]
    simp [hno]
  · obtain ⟨x, hx⟩ := argmax_spec hnil
    have hx1 := hx.1
    simp only at hx1
    rw [hx1]
    simp only
    obtain ⟨m, hm, hxm, hm2, hm3⟩ := (hfirst x _).1 hx
    constructor
    · intro h
      split at h
      · next ht =>
        obtain rfl := Option.some.inj h
        exact ⟨m, hm, hxm ▸ ht, hm2, hm3⟩
      · exact (nomatch h)
    · rintro ⟨m', hm', ht', h2', h3'⟩
      have hf := (hfirst _ k).2 ⟨m', hm', rfl, h2', h3'⟩
      have := hx.unique hf
      simp only [Prod.mk.injEq] at this
      rw [if_pos (by rw [this.1]; exact ht'), this.2]

/-! ## C76 -/

theorem simAt_lt {cos : V → V → K} {vs : List V} {i j : Nat} {v w : V} (hv : vs[i]? = some v)
    (hw : vs[j]? = some w) : simAt cos vs vs i j = cos v w := by
  unfold simAt
  rw [hv, hw]

/-- Cluster number `i` of a list of scored clusters. -/
def clusterAt (D : List (K × List E)) (i : Nat) : List E := ((D[i]?).map Prod.snd).getD []

/-- C76: on matrices whose rows are the elements, step 2 returns as many committees as there are groups of kept
clusters; every kept cluster is in exactly one group; a group is one cluster, or two whose committee vectors
have a similarity of at least theta1; and committee number `k` has exactly the elements of its group's clusters
and those kept singletons for which group `k` is the (first) most similar one, reaching theta1. -/
theorem C76_committees (c : Clustering K E V) (elements : List E) (L : List (K × List E))
    (hsort : SortsRow c.argsort) (r : List (List E) × List V) (h : step2 c elements elements L = .ok r) :
    ∃ (groups : List (List (List E))) (merged : List (List E)),
      groups.flatten.Perm ((cleanClusters L).1.map Prod.snd) ∧
      (∀ g ∈ groups, (∃ a, g = [a]) ∨ ∃ a b a' b', g = [a, b] ∧ a'.Perm a ∧ b'.Perm b ∧
        c.theta1 ≤ c.cos (c.commVec elements a') (c.commVec elements b')) ∧
      List.Forall₂ (fun g m => ∀ e, e ∈ m ↔ ∃ a ∈ g, e ∈ a) groups merged ∧
      r.1.length = merged.length ∧
      ∀ (k : Nat) comm m, r.1[k]? = some comm → merged[k]? = some m →
        ∀ e, e ∈ comm ↔ e ∈ m ∨ (e ∈ (cleanClusters L).2 ∧ BestCommittee c elements merged e k) := by
  obtain ⟨run⟩ := step2_run h
  obtain ⟨idxcomms, commx, mgcommx, sglidx, withSgl, hidx, hcommx, hne, hmg, hsgl, hwith, hvecs, hitems⟩ := run
  generalize hD : (cleanClusters L).1 = D at hidx
  have hlenI : D.length = idxcomms.length := hidx.length_eq
  have hlenC : idxcomms.length = commx.length := hcommx.length_eq
  generalize hsim : simAt c.cos commx commx = sim at hmg hwith
  generalize hord : (fun i => c.argsort ((List.range commx.length).map (sim i))) = order at hmg hwith
  have hargs : IsArgsort commx.length sim order := by
    intro i _
    obtain ⟨hp, hs⟩ := hsort ((List.range commx.length).map (sim i))
    rw [List.length_map, List.length_range] at hp
    have ho : order i = c.argsort ((List.range commx.length).map (sim i)) := by rw [← hord]
    rw [ho]
    refine ⟨hp, hs.imp_of_mem ?_⟩
    intro a b ha hb hab
    have ha' := List.mem_range.1 (hp.mem_iff.1 ha)
    have hb' := List.mem_range.1 (hp.mem_iff.1 hb)
    exact hab _ _ (by simp [ha']) (by simp [hb'])
  obtain ⟨honce, hpairs⟩ := C43_once commx.length sim order c.theta1 hargs
  generalize hres : getMerged commx.length sim order c.theta1 = mg at hmg hwith honce hpairs
  -- members of the clusters by id
  have hclus : ∀ i < commx.length, ∃ ids, idxcomms[i]? = some ids ∧ (∀ x ∈ ids, x < elements.length) ∧
      (names elements ids).Perm (clusterAt D i) := by
    intro i hi
    have hi1 : i < D.length := by omega
    have hi2 : i < idxcomms.length := by omega
    have hrel := (List.forall₂_iff_get.1 hidx).2 i hi1 hi2
    simp only [List.get_eq_getElem] at hrel
    obtain ⟨h1, h2⟩ := sortedIds_names hrel
    refine ⟨idxcomms[i], List.getElem?_eq_getElem hi2, h1, ?_⟩
    unfold clusterAt
    rw [List.getElem?_eq_getElem hi1]
    exact h2
  have hvec : ∀ i < commx.length, ∃ v, commx[i]? = some v ∧
      v = c.commVec elements (names elements ((idxcomms[i]?).getD [])) := by
    intro i hi
    have hi2 : i < idxcomms.length := by omega
    have hrel := (List.forall₂_iff_get.1 hcommx).2 i hi2 hi
    simp only [List.get_eq_getElem] at hrel
    obtain ⟨_, h2⟩ := vecOf_ok hrel
    refine ⟨commx[i], List.getElem?_eq_getElem hi, ?_⟩
    rw [List.getElem?_eq_getElem hi2]
    exact h2
  have hnamed : ∀ x ∈ named mg, x < commx.length := fun x hx => List.mem_range.1 (honce.mem_iff.1 hx)
  have hfst : ∀ p ∈ mg, p.1 < commx.length := fun p hp => hnamed _ (mem_named.2 ⟨p, hp, .inl rfl⟩)
  have hsnd : ∀ p ∈ mg, ∀ j, p.2 = some j → j < commx.length :=
    fun p hp j hj => hnamed _ (mem_named.2 ⟨p, hp, .inr hj⟩)
  refine ⟨mg.map (fun p => clusterAt D p.1 :: (p.2.map (clusterAt D)).toList),
    mg.map (fun p => names elements (unionOf idxcomms p)), ?_, ?_, ?_, ?_, ?_⟩
  · -- every kept cluster once
    have e1 : (mg.map (fun p => clusterAt D p.1 :: (p.2.map (clusterAt D)).toList)).flatten
        = (named mg).map (clusterAt D) := by
      unfold named
      rw [List.map_flatMap, ← List.flatMap_def]
      congr 1
      funext p
      cases p.2 <;> simp
    rw [e1]
    refine (honce.map _).trans ?_
    rw [← hlenC, ← hlenI]
    have e2 : (List.range D.length).map (clusterAt D) = D.map Prod.snd := by
      apply List.ext_getElem
      · simp
      · intro i h1 h2
        simp only [List.length_map, List.length_range] at h1
        simp [clusterAt, h1]
    rw [e2]
  · -- groups of one or two
    intro g hg
    obtain ⟨⟨i, o⟩, hp, rfl⟩ := List.mem_map.1 hg
    cases o with
    | none => exact .inl ⟨_, rfl⟩
    | some j =>
      right
      have hi := hfst _ hp
      have hj := hsnd _ hp j rfl
      obtain ⟨ids, h1, _, h3⟩ := hclus i hi
      obtain ⟨jds, h1', _, h3'⟩ := hclus j hj
      obtain ⟨v, hv, hv'⟩ := hvec i hi
      obtain ⟨w, hw, hw'⟩ := hvec j hj
      refine ⟨_, _, names elements ids, names elements jds, rfl, h3, h3', ?_⟩
      have ht := (hpairs i j hp).2
      rw [← hsim, simAt_lt hv hw, hv', hw', h1, h1'] at ht
      exact ht
  · -- merged members
    rw [List.forall₂_map_left_iff, List.forall₂_map_right_iff, List.forall₂_same]
    rintro ⟨i, o⟩ hp e
    have hi := hfst _ hp
    obtain ⟨ids, h1, _, h3⟩ := hclus i hi
    have hu : ∀ x, x ∈ unionOf idxcomms (i, o) ↔ x ∈ ids ∨ ∃ j jds, o = some j ∧ idxcomms[j]? = some jds ∧ x ∈ jds := by
      intro x
      unfold unionOf
      rw [(sortedBy_perm _ _).mem_iff, List.mem_dedup, List.mem_append]
      simp only [h1, Option.getD_some]
      refine or_congr Iff.rfl ?_
      cases o with
      | none => simp
      | some j =>
        simp only [Option.bind_some, Option.some.injEq]
        cases hj : idxcomms[j]? with
        | none =>
          simp only [Option.getD_none, List.not_mem_nil, false_iff]
          rintro ⟨j', jds, rfl, h, _⟩
          rw [hj] at h
          exact (nomatch h)
        | some jds =>
          simp only [Option.getD_some]
          constructor
          · intro hx; exact ⟨j, jds, rfl, hj, hx⟩
          · rintro ⟨j', jds', rfl, h, hx⟩
            rw [hj] at h
            rw [Option.some.inj h]; exact hx
    simp only [mem_names, List.mem_cons, exists_eq_or_imp]
    constructor
    · rintro ⟨x, hx, he⟩
      rcases (hu x).1 hx with hx | ⟨j, jds, rfl, hj, hx⟩
      · exact .inl (h3.mem_iff.1 (mem_names.2 ⟨x, hx, he⟩))
      · right
        obtain ⟨jds', h1', _, h3'⟩ := hclus j (hsnd _ hp j rfl)
        rw [hj] at h1'
        obtain rfl := Option.some.inj h1'
        exact ⟨clusterAt D j, by simp, h3'.mem_iff.1 (mem_names.2 ⟨x, hx, he⟩)⟩
    · rintro (he | ⟨a, ha, he⟩)
      · obtain ⟨x, hx, hxe⟩ := mem_names.1 (h3.mem_iff.2 he)
        exact ⟨x, (hu x).2 (.inl hx), hxe⟩
      · cases o with
        | none => simp at ha
        | some j =>
          simp only [Option.map_some, Option.toList_some, List.mem_singleton] at ha
          subst ha
          obtain ⟨jds, h1', _, h3'⟩ := hclus j (hsnd _ hp j rfl)
          obtain ⟨x, hx, hxe⟩ := mem_names.1 (h3'.mem_iff.2 he)
          exact ⟨x, (hu x).2 (.inr ⟨j, jds, rfl, h1', hx⟩), hxe⟩
  · -- as many committees
    have h1 := hitems.length_eq
    have h2 : ∀ k : Nat, withSgl[k]? = none ↔ (mg.map (unionOf idxcomms))[k]? = none := by
      intro k
      rw [attach_loop sglidx hwith k, Option.map_eq_none_iff]
    have h3 : withSgl.length = (mg.map (unionOf idxcomms)).length := by
      have a1 := (h2 (mg.map (unionOf idxcomms)).length).2 (List.getElem?_eq_none le_rfl)
      have a2 := (h2 withSgl.length).1 (List.getElem?_eq_none le_rfl)
      rw [List.getElem?_eq_none_iff] at a1 a2
      omega
    rw [List.length_map] at h1
    rw [← h1, h3, List.length_map, List.length_map]
  · -- members
    intro k comm m hk hm e
    have hk' := (List.getElem?_eq_some_iff.1 hk).1
    have hlen := hitems.length_eq
    have hkw : k < withSgl.length := by rw [List.length_map] at hlen; omega
    have hrel := (List.forall₂_iff_get.1 hitems).2 k (by simpa using hkw) hk'
    simp only [List.get_eq_getElem, List.getElem_map] at hrel
    rw [(List.getElem?_eq_some_iff.1 hk).2] at hrel
    obtain ⟨_, hcomm⟩ := itemsAt_ok.1 hrel
    -- the vectors of the merged committees
    have hvm : mgcommx = (mg.map (fun p => names elements (unionOf idxcomms p))).map (c.commVec elements) := by
      have : ∀ (l : List (List Nat)) (vs : List V), List.Forall₂ (fun ids v => vecOf c elements ids = .ok v) l vs →
          vs = (l.map (names elements)).map (c.commVec elements) := by
        intro l vs hf
        induction hf with
        | nil => rfl
        | cons ha _ ih =>
          obtain ⟨_, rfl⟩ := vecOf_ok ha
          rw [List.map_cons, List.map_cons, ← ih]
      have := this _ _ hmg
      rw [this, List.map_map (l := mg)]
      rfl
    have hwk := attach_loop sglidx hwith k
    rw [List.getElem?_map] at hm
    obtain ⟨p, hp, rfl⟩ := Option.map_eq_some_iff.1 hm
    rw [List.getElem?_map, hp, List.getElem?_eq_getElem hkw] at hwk
    simp only [Option.map_some, Option.some.injEq] at hwk
    rw [hwk] at hcomm
    obtain ⟨hs1, hs2⟩ := sortedIds_names hsgl
    rw [hcomm, mem_names]
    have hbest : ∀ s e', elements[s]? = some e' →
        (goesTo c mgcommx elements k s = true ↔ BestCommittee c elements
          (mg.map (fun p => names elements (unionOf idxcomms p))) e' k) := by
      intro s e' hs
      unfold goesTo
      rw [hs, hvm]
      simp only [decide_eq_true_eq]
      exact target_iff c elements _ e' k
    constructor
    · rintro ⟨i, hi, he⟩
      rw [(sortedBy_perm _ _).mem_iff, List.mem_append, List.mem_filter] at hi
      rcases hi with hi | ⟨hi, hg⟩
      · exact .inl (mem_names.2 ⟨i, hi, he⟩)
      · exact .inr ⟨hs2.mem_iff.1 (mem_names.2 ⟨i, hi, he⟩), (hbest i e he).1 hg⟩
    · rintro (he | ⟨he, hb⟩)
      · obtain ⟨i, hi, hie⟩ := mem_names.1 he
        exact ⟨i, (sortedBy_perm _ _).mem_iff.2 (List.mem_append.2 (.inl hi)), hie⟩
      · obtain ⟨i, hi, hie⟩ := mem_names.1 (hs2.mem_iff.2 he)
        exact ⟨i, (sortedBy_perm _ _).mem_iff.2
          (List.mem_append.2 (.inr (List.mem_filter.2 ⟨hi, (hbest i e hie).2 hb⟩))), hie⟩

/-- A run meeting the hypotheses: two clusters that stay apart, a singleton joining the second committee, and a
singleton that joins none. -/
example : ∃ c : Clustering ℚ Nat Nat, (step2 c [1, 2, 3, 4, 5, 6] [1, 2, 3, 4, 5, 6]
      [(2, [1, 2]), (1, [3, 4]), (-1, [5]), (-1, [6])]) = .ok ([[1, 2], [3, 4, 5]], [3, 12]) :=
  ⟨⟨[1, 2, 3, 4, 5, 6], [1, 2, 3, 4, 5, 6], fun _ l => l.sum, fun e => e,
    fun v w => if v = w then 1 else if v = 5 ∧ w = 7 then 3/4 else 0,
    fun l => sortedBy (fun i => (l[i]?).getD 0) (List.range l.length),
    fun _ _ => .ok [], 1/2, 1/2, false, 5⟩, by decide +kernel⟩

end Verif.Cbc
