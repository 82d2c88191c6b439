import Verif.Cbc.Rounds
import Verif.Cbc.PropsMerge
import Verif.Cbc.PropsClean
import Verif.Cbc.PropsStep1
import Mathlib.Data.List.Forall2
import Mathlib.Data.List.Sublists

/-!
# C45, C71, C72, C76, C78: the rounds of CBC
-/

set_option linter.unusedSectionVars false

namespace Verif.Cbc

open Verif.Py

variable {K E V : Type} [Field K] [LinearOrder K] [LinearOrder E]

/-! ## Lemmas on `mapM` -/

theorem mapM_inv {α β : Type} {f : α → Except Err β} {l : List α} {r : List β}
    (h : l.mapM f = .ok r) : List.Forall₂ (fun a b => f a = .ok b) l r := by
  induction l generalizing r with
  | nil =>
    obtain rfl := Except.ok.inj h
    exact .nil
  | cons a l ih =>
    rw [List.mapM_cons] at h
    cases ha : f a with
    | error e => rw [ha] at h; simp [bind, Except.bind] at h
    | ok b =>
      rw [ha] at h
      simp only [bind, Except.bind, pure, Except.pure] at h
      split at h
      · exact (nomatch h)
      · next rest hr =>
        obtain rfl := Except.ok.inj h
        exact .cons ha (ih hr)

theorem bind_ok {α β : Type} {x : Except Err α} {f : α → Except Err β} {r : β}
    (h : (x >>= f) = .ok r) : ∃ a, x = .ok a ∧ f a = .ok r := by
  cases x with
  | error e => exact (nomatch h)
  | ok a => exact ⟨a, rfl, h⟩

/-- The names at given positions. -/
def names {α : Type} (items : List α) (ids : List Nat) : List α := ids.filterMap (fun i => items[i]?)

theorem itemsAt_ok {α : Type} {items : List α} {ids : List Nat} {r : List α} :
    itemsAt items ids = .ok r ↔ (∀ i ∈ ids, i < items.length) ∧ r = names items ids := by
  induction ids generalizing r with
  | nil =>
    simp only [itemsAt, names, List.mapM_nil, List.filterMap_nil, List.not_mem_nil, false_implies,
      implies_true, true_and]
    constructor
    · intro h; exact (Except.ok.inj h).symm
    · rintro rfl; rfl
  | cons i l ih =>
    unfold itemsAt at ih ⊢
    rw [List.mapM_cons]
    by_cases hi : i < items.length
    · rw [List.getElem?_eq_getElem hi]
      simp only [bind, Except.bind, pure, Except.pure, List.mem_cons, forall_eq_or_imp, hi, true_and, names,
        List.filterMap_cons, List.getElem?_eq_getElem hi]
      constructor
      · intro h
        split at h
        · exact (nomatch h)
        · next rest hr =>
          obtain ⟨h1, rfl⟩ := (ih (r := rest)).1 hr
          exact ⟨h1, (Except.ok.inj h).symm⟩
      · rintro ⟨h1, rfl⟩
        rw [(ih (r := names items l)).2 ⟨h1, rfl⟩]
        rfl
    · rw [List.getElem?_eq_none (by omega)]
      constructor
      · intro h; exact (nomatch h)
      · rintro ⟨h1, _⟩
        exact absurd (h1 i (by simp)) hi

theorem mem_names {α : Type} {items : List α} {ids : List Nat} {e : α} :
    e ∈ names items ids ↔ ∃ i ∈ ids, items[i]? = some e := by
  simp [names, List.mem_filterMap]

theorem idsOf_names {items l : List E} {ids : List Nat} (h : idsOf (idDict items) l = .ok ids) :
    (∀ i ∈ ids, i < items.length) ∧ names items ids = l := by
  have := mapM_inv h
  clear h
  induction this with
  | nil => exact ⟨by simp, rfl⟩
  | @cons e i l ids h1 _ ih =>
    have hi : items[i]? = some e := by
      cases hx : (idDict items).get? e with
      | none => rw [hx] at h1; exact (nomatch h1)
      | some j =>
        rw [hx] at h1
        obtain rfl := Except.ok.inj h1
        exact idDict_get items e j hx
    refine ⟨?_, ?_⟩
    · intro j hj
      rcases List.mem_cons.1 hj with rfl | hj
      · exact (List.getElem?_eq_some_iff.1 hi).1
      · exact ih.1 j hj
    · have ih2 := ih.2
      unfold names at ih2 ⊢
      rw [List.filterMap_cons, hi]
      simp only [ih2]

/-- Sorted ids name the elements of the cluster. -/
theorem sortedIds_names {items l : List E} {ids : List Nat} (h : sortedIds (idDict items) l = .ok ids) :
    (∀ i ∈ ids, i < items.length) ∧ (names items ids).Perm l := by
  obtain ⟨js, h1, h2⟩ := bind_ok h
  obtain rfl := Except.ok.inj h2
  obtain ⟨h3, h4⟩ := idsOf_names h1
  have hp := sortedBy_perm (id : Nat → Nat) js
  exact ⟨fun i hi => h3 i (hp.mem_iff.1 hi), h4 ▸ hp.filterMap _⟩

theorem sortedIds_nodup {items l : List E} {ids : List Nat} (h : sortedIds (idDict items) l = .ok ids)
    (hl : l.Nodup) : ids.Nodup := by
  obtain ⟨h1, h2⟩ := sortedIds_names h
  have hnd : (names items ids).Nodup := h2.nodup_iff.2 hl
  clear h h2
  induction ids with
  | nil => simp
  | cons i ids ih =>
    have hi := h1 i (by simp)
    unfold names at hnd ih
    rw [List.filterMap_cons, List.getElem?_eq_getElem hi] at hnd
    simp only [List.nodup_cons, List.mem_filterMap, not_exists, not_and] at hnd
    rw [List.nodup_cons]
    refine ⟨fun hm => hnd.1 i hm (List.getElem?_eq_getElem hi), ih (fun j hj => h1 j (by simp [hj])) hnd.2⟩

/-! ## C45, first part: the number of rounds and the chain of residues -/

/-- The elements a round starts from: the initial ones, then the residues of the round before. -/
def startOf {C : Type} (init : List E) (rounds : List (List C × List E)) : Nat → List E
  | 0 => init
  | k + 1 => ((rounds[k]?).map Prod.snd).getD []

theorem startOf_cons_succ {C : Type} (init : List E) (r : List C × List E) (rounds : List (List C × List E))
    (k : Nat) : startOf init (r :: rounds) (k + 1) = startOf r.2 rounds k := by
  cases k with
  | zero => rfl
  | succ k => simp [startOf]

/-- C45: whatever the rounds do — fail, or return some committees and a sub-list of their elements as
residues — there are at most `num_iter` rounds and at most as many as elements, every round starts from a
non-empty list, and its entry is what the round returned, `([], [])` if it failed. -/
theorem C45_rounds {C : Type} (steps : List E → Except Err (List C × List E))
    (hsub : ∀ eles r, steps eles = .ok r → r.2.Sublist eles) (numIter : Nat) (init : List E) :
    (clusterLoop steps numIter init).length ≤ min numIter init.length ∧
    ∀ k r, (clusterLoop steps numIter init)[k]? = some r →
      startOf init (clusterLoop steps numIter init) k ≠ [] ∧
      r.2.Sublist (startOf init (clusterLoop steps numIter init) k) ∧
      (steps (startOf init (clusterLoop steps numIter init) k) = .ok r ∨
        ((∃ e, steps (startOf init (clusterLoop steps numIter init) k) = .error e) ∧ r = ([], []))) := by
  have hround : ∀ eles, (roundOf steps eles).2.Sublist eles ∧
      (steps eles = .ok (roundOf steps eles) ∨
        ((∃ e, steps eles = .error e) ∧ roundOf steps eles = ([], []))) := by
    intro eles
    unfold roundOf
    cases hs : steps eles with
    | ok r => exact ⟨hsub eles r hs, .inl rfl⟩
    | error e => exact ⟨List.nil_sublist _, .inr ⟨⟨e, rfl⟩, rfl⟩⟩
  induction numIter generalizing init with
  | zero => simp [clusterLoop]
  | succ n ih =>
    unfold clusterLoop
    by_cases hnil : init = []
    · rw [if_pos hnil]
      simp
    · rw [if_neg hnil]
      simp only
      have hpos : 1 ≤ init.length := List.length_pos_iff.2 hnil
      obtain ⟨h1, h2⟩ := hround init
      have hone : ([roundOf steps init] : List (List C × List E)).length ≤ min (n + 1) init.length ∧
          ∀ k r, [roundOf steps init][k]? = some r →
            startOf init [roundOf steps init] k ≠ [] ∧
            r.2.Sublist (startOf init [roundOf steps init] k) ∧
            (steps (startOf init [roundOf steps init] k) = .ok r ∨
              ((∃ e, steps (startOf init [roundOf steps init] k) = .error e) ∧ r = ([], []))) := by
        refine ⟨by simp; omega, ?_⟩
        intro k r hk
        match k, hk with
        | 0, hk =>
          obtain rfl := Option.some.inj hk
          exact ⟨hnil, h1, h2⟩
        | k + 1, hk => simp at hk
      split
      · exact hone
      · split
        · exact hone
        · next hle hne =>
          obtain ⟨i1, i2⟩ := ih (roundOf steps init).2
          have hlt : (roundOf steps init).2.length < init.length :=
            lt_of_le_of_ne h1.length_le hne
          refine ⟨?_, ?_⟩
          · rw [List.length_cons]
            simp only [le_min_iff] at i1 ⊢
            omega
          · intro k r hk
            match k, hk with
            | 0, hk =>
              obtain rfl := Option.some.inj hk
              exact ⟨hnil, h1, h2⟩
            | k + 1, hk =>
              rw [startOf_cons_succ]
              exact i2 k r (by simpa using hk)

/-! ## Steps 2 and 3 -/

/-- Step 3, for the rows from position `k` on. -/
theorem step3_loop (c : Clustering K E V) (elements : List E) (commx : List V) (rows : List E) :
    ∀ (k : Nat) (st st' : List E × List (List E)),
      (rows.zipIdx k).foldlM (step3Step c elements commx) st = .ok st' →
      (rows = [] ∨ rows.length + k ≤ elements.length) ∧
      st'.1 = st.1 ++ (((elements.drop k).zip rows).filter (fun p => isResidue c commx p.2)).map Prod.fst := by
  induction rows with
  | nil =>
    intro k st st' h
    obtain rfl := Except.ok.inj h
    simp
  | cons a rows ih =>
    intro k st st' h
    rw [List.zipIdx_cons, List.foldlM_cons] at h
    obtain ⟨st1, h1, h2⟩ := bind_ok h
    obtain ⟨h3, h4⟩ := ih (k + 1) st1 st' h2
    unfold step3Step at h1
    simp only at h1
    cases hk : elements[k]? with
    | none => rw [hk] at h1; exact (nomatch h1)
    | some e =>
      rw [hk] at h1
      simp only at h1
      obtain ⟨hlt, hge⟩ := List.getElem?_eq_some_iff.1 hk
      have hdrop : elements.drop k = e :: elements.drop (k + 1) := by
        rw [List.drop_eq_getElem_cons hlt, hge]
      refine ⟨.inr ?_, ?_⟩
      · rcases h3 with rfl | h3
        · simp; omega
        · simp only [List.length_cons]; omega
      · rw [h4, hdrop, List.zip_cons_cons, List.filter_cons]
        by_cases hr : isResidue c commx a = true
        · rw [if_pos hr] at h1
          obtain rfl := Except.ok.inj h1
          simp [hr]
        · rw [if_neg hr] at h1
          obtain rfl := Except.ok.inj h1
          simp [hr]

theorem map_fst_zip_sublist {α β : Type} (l : List α) (m : List β) : ((l.zip m).map Prod.fst).Sublist l := by
  induction l generalizing m with
  | nil => simp
  | cons a l ih =>
    cases m with
    | nil => simp
    | cons b m => simpa using ih m

/-- The residues of step 3 are always a sub-list of the elements. -/
theorem step3_sublist {c : Clustering K E V} {elements rows : List E} {comms : List (List E)} {commx : List V}
    {s : List E × List (List E)} (h : step3 c elements rows comms commx = .ok s) : s.1.Sublist elements := by
  obtain ⟨_, h2⟩ := step3_loop c elements commx rows 0 ([], comms) s h
  rw [h2]
  simp only [List.drop_zero, List.nil_append]
  refine ((List.filter_sublist).map Prod.fst).trans ?_
  exact map_fst_zip_sublist _ _

/-- When the rows are those of the elements, the residues are the elements below theta everywhere. -/
theorem step3_residues {c : Clustering K E V} {elements : List E} {comms : List (List E)} {commx : List V}
    {s : List E × List (List E)} (h : step3 c elements elements comms commx = .ok s) :
    s.1 = elements.filter (fun e => isResidue c commx e) := by
  obtain ⟨_, h2⟩ := step3_loop c elements commx elements 0 ([], comms) s h
  rw [h2]
  simp only [List.drop_zero, List.nil_append]
  clear h h2
  induction elements with
  | nil => rfl
  | cons e l ih =>
    rw [List.zip_cons_cons, List.filter_cons, List.filter_cons]
    by_cases hr : isResidue c commx e = true
    · simp [hr, ih]
    · simp [hr, ih]

/-! ### Step 2 -/

theorem vecOf_ok {c : Clustering K E V} {rows : List E} {ids : List Nat} {v : V}
    (h : vecOf c rows ids = .ok v) : (∀ i ∈ ids, i < rows.length) ∧ v = c.commVec rows (names rows ids) := by
  obtain ⟨r, h1, h2⟩ := bind_ok h
  obtain ⟨h3, rfl⟩ := itemsAt_ok.1 h1
  exact ⟨h3, (Except.ok.inj h2).symm⟩

/-- What a successful step 2 computed. -/
structure Step2Run (c : Clustering K E V) (elements rows : List E) (L : List (K × List E))
    (r : List (List E) × List V) where
  idxcomms : List (List Nat)
  commx : List V
  mgcommx : List V
  sglidx : List Nat
  withSgl : List (List Nat)
  hidx : List.Forall₂ (fun p ids => sortedIds (idDict elements) p.2 = .ok ids) (cleanClusters L).1 idxcomms
  hcommx : List.Forall₂ (fun ids v => vecOf c rows ids = .ok v) idxcomms commx
  hne : commx ≠ []
  hmg : List.Forall₂ (fun ids v => vecOf c rows ids = .ok v)
    ((getMerged commx.length (simAt c.cos commx commx)
      (fun i => c.argsort ((List.range commx.length).map (simAt c.cos commx commx i))) c.theta1).map
      (unionOf idxcomms)) mgcommx
  hsgl : sortedIds (idDict elements) (cleanClusters L).2 = .ok sglidx
  hwith : sglidx.foldlM (attach c mgcommx rows) ((getMerged commx.length (simAt c.cos commx commx)
      (fun i => c.argsort ((List.range commx.length).map (simAt c.cos commx commx i))) c.theta1).map
      (unionOf idxcomms)) = .ok withSgl
  hvecs : List.Forall₂ (fun ids v => vecOf c rows ids = .ok v) (withSgl.map (sortedBy id)) r.2
  hitems : List.Forall₂ (fun ids l => itemsAt elements ids = .ok l) (withSgl.map (sortedBy id)) r.1

theorem step2_run {c : Clustering K E V} {elements rows : List E} {L : List (K × List E)}
    {r : List (List E) × List V} (h : step2 c elements rows L = .ok r) :
    Nonempty (Step2Run c elements rows L r) := by
  unfold step2 at h
  split at h
  · exact (nomatch h)
  · simp only at h
    obtain ⟨idxcomms, h1, h⟩ := bind_ok h
    obtain ⟨commx, h2, h⟩ := bind_ok h
    split at h
    · exact (nomatch h)
    · next hne =>
      obtain ⟨mgcommx, h3, h⟩ := bind_ok h
      obtain ⟨sglidx, h4, h⟩ := bind_ok h
      obtain ⟨withSgl, h5, h⟩ := bind_ok h
      obtain ⟨finalx, h6, h⟩ := bind_ok h
      obtain ⟨items, h7, h⟩ := bind_ok h
      obtain rfl := Except.ok.inj h
      exact ⟨⟨idxcomms, commx, mgcommx, sglidx, withSgl, mapM_inv h1, mapM_inv h2, hne, mapM_inv h3, h4, h5,
        mapM_inv h6, mapM_inv h7⟩⟩

/-- When the matrix rows are the elements, the returned vectors are those of the returned committees. -/
theorem step2_vectors {c : Clustering K E V} {elements : List E} {L : List (K × List E)}
    {r : List (List E) × List V} (h : step2 c elements elements L = .ok r) :
    r.2 = r.1.map (c.commVec elements) := by
  obtain ⟨run⟩ := step2_run h
  have h1 := run.hvecs
  have h2 := run.hitems
  generalize run.withSgl.map (sortedBy id) = l at h1 h2
  generalize r.1 = items at h2 ⊢
  generalize r.2 = vs at h1 ⊢
  clear run h
  induction h1 generalizing items with
  | nil =>
    rcases h2 with _ | _
    rfl
  | cons ha _ ih =>
    rcases h2 with _ | ⟨hb, ht⟩
    obtain ⟨_, rfl⟩ := vecOf_ok ha
    obtain ⟨_, rfl⟩ := itemsAt_ok.1 hb
    rw [List.map_cons, ih _ ht]

/-! ## C45, second part: the residues of a round -/

/-- The rows used in a round are the round's elements: either a sub-matrix is taken and all elements are rows
of the matrices, or the matrices have exactly the elements as rows, in that order. -/
def Aligned (c : Clustering K E V) (eles : List E) : Prop :=
  if c.elements = eles then c.rowItems = eles else eles ≠ [] ∧ ∀ e ∈ eles, e ∈ c.rowItems

theorem roundRows_aligned {c : Clustering K E V} {eles : List E} (h : Aligned c eles) :
    roundRows c eles = .ok eles := by
  unfold Aligned at h
  unfold roundRows
  split
  · next he =>
    rw [if_pos he] at h
    rw [h]
  · next he =>
    rw [if_neg he] at h
    have : eles.filter (fun e => decide (e ∈ c.rowItems)) = eles := by
      rw [List.filter_eq_self]
      intro e he'
      simpa using h.2 e he'
    simp only [this, if_neg h.1]

/-- Residues of a round are a sub-list of its elements, whatever the matrices. -/
theorem majorSteps_sublist {c : Clustering K E V} {eles : List E} {r : List (List E) × List E}
    (h : majorSteps c eles = .ok r) : r.2.Sublist eles := by
  unfold majorSteps at h
  obtain ⟨rows, _, h⟩ := bind_ok h
  obtain ⟨L, _, h⟩ := bind_ok h
  obtain ⟨r2, _, h⟩ := bind_ok h
  split at h
  · obtain rfl := Except.ok.inj h
    exact List.Sublist.refl _
  · obtain ⟨s, h3, h⟩ := bind_ok h
    obtain rfl := Except.ok.inj h
    exact step3_sublist h3

/-- C45, for one round: the residues are exactly the elements whose similarity to every committee the round
returns is below theta2, in order. -/
theorem C45_round {c : Clustering K E V} {eles : List E} (hal : Aligned c eles)
    {r : List (List E) × List E} (h : majorSteps c eles = .ok r) :
    r.2 = eles.filter (fun e => decide (∀ comm ∈ r.1, c.cos (c.rowVec e) (c.commVec eles comm) < c.theta2)) := by
  unfold majorSteps at h
  rw [roundRows_aligned hal] at h
  obtain ⟨rows, hr, h⟩ := bind_ok h
  obtain rfl := Except.ok.inj hr
  obtain ⟨L, _, h⟩ := bind_ok h
  obtain ⟨r2, h2, h⟩ := bind_ok h
  split at h
  · obtain rfl := Except.ok.inj h
    simp
  · obtain ⟨s, h3, h⟩ := bind_ok h
    obtain rfl := Except.ok.inj h
    simp only
    rw [step3_residues h3]
    refine List.filter_congr (fun e _ => ?_)
    unfold isResidue
    rw [step2_vectors h2]
    rw [Bool.eq_iff_iff]
    simp

/-- C45, partial: in `CBC.cluster` on matrices whose rows are the elements, there are at most
min(num_iter, number of elements) rounds; every round's residues are a sub-list of what it started from; and
unless the round failed — then it is recorded without committees and without residues — they are exactly the
elements whose similarity to every committee of the round is below theta2.
Missing: the residues of failed rounds (`C45_false`), and matrices with other rows (`C78_false_rows`). -/
theorem C45_partial (c : Clustering K E V) (numEles : Int) (hrows : c.rowItems = c.elements) :
    let init := if 0 < numEles then c.elements.take numEles.toNat else c.elements
    let rounds := cluster c numEles
    rounds.length ≤ min c.numIter init.length ∧
    ∀ k r, rounds[k]? = some r →
      r.2.Sublist (startOf init rounds k) ∧
      (((∃ e, majorSteps c (startOf init rounds k) = .error e) ∧ r = ([], [])) ∨
        r.2 = (startOf init rounds k).filter (fun e => decide
          (∀ comm ∈ r.1, c.cos (c.rowVec e) (c.commVec (startOf init rounds k) comm) < c.theta2))) := by
  intro init rounds
  have hinit : init.Sublist c.elements := by
    unfold init
    split
    · exact List.take_sublist _ _
    · exact List.Sublist.refl _
  obtain ⟨h1, h2⟩ := C45_rounds (majorSteps c) (fun _ _ => majorSteps_sublist) c.numIter init
  have hstart : ∀ k r, rounds[k]? = some r → (startOf init rounds k).Sublist c.elements := by
    intro k
    induction k with
    | zero => intro r _; exact hinit
    | succ k ih =>
      intro r hk
      have hlt : k < rounds.length := by
        have := (List.getElem?_eq_some_iff.1 hk).1
        omega
      have hk' : rounds[k]? = some rounds[k] := List.getElem?_eq_getElem hlt
      have := (h2 k _ hk').2.1
      have e : startOf init rounds (k + 1) = rounds[k].2 := by simp [startOf, hk']
      rw [e]
      exact this.trans (ih _ hk')
  refine ⟨h1, fun k r hk => ?_⟩
  obtain ⟨h3, h4, h5⟩ := h2 k r hk
  refine ⟨h4, ?_⟩
  rcases h5 with h5 | h5
  · right
    refine C45_round ?_ h5
    unfold Aligned
    split
    · next he => rw [hrows]; exact he
    · exact ⟨h3, fun e he => by rw [hrows]; exact (hstart k r hk).subset he⟩
  · exact .inl h5

/-! ### Concrete inputs -/

/-- Elements 1–4; vectors are numbers, 1 and 2 are similar to everything, the others to nothing. -/
def exCbc (L : List (ℚ × List Nat)) (elements rowItems : List Nat) : Clustering ℚ Nat Nat :=
  ⟨elements, rowItems, fun _ l => l.sum, fun e => e, fun v _ => if v ≤ 2 then 1 else 0, fun _ => [0],
    fun highest _ => .ok (if highest then L.take 1 else L), 1/2, 1/2, true, 5⟩

/-- One committee, residues 3, 4 and 5; the second round fails, having no clusters among its elements. -/
example : cluster (exCbc [(1, [1, 2])] [1, 2, 3, 4, 5] [1, 2, 3, 4, 5]) (-1)
    = [([[1, 2]], [3, 4, 5]), ([], [])] := by decide +kernel

/-- C45 is false: with only singletons in step 1, the round fails and is recorded without committees and
without residues, although every element is below theta2 for each of its (no) committees. -/
theorem C45_false :
    ∃ c : Clustering ℚ Nat Nat, c.rowItems = c.elements ∧ c.elements = [1, 2, 3] ∧
      majorSteps c c.elements = .error .value ∧ cluster c (-1) = [([], [])] :=
  ⟨exCbc [(-1, [1]), (-1, [2]), (-1, [3])] [1, 2, 3] [1, 2, 3], rfl, rfl, by decide +kernel, by decide +kernel⟩

/-- C71 is false: the option `highest_score` of a `CBC` object has no effect on the result … -/
theorem C71_false_ignored (c : Clustering K E V) (b : Bool) (numEles : Int) :
    cluster { c with highest := b } numEles = cluster c numEles := rfl

/-- … although it asks for one cluster per element: here step 1 with `highest_score` gives one cluster, and
the clustering returns committees made of two. -/
theorem C71_false :
    ∃ c : Clustering ℚ Nat Nat, c.highest = true ∧ c.rowItems = c.elements ∧
      c.step1 true c.elements = .ok [(1, [1, 2])] ∧
      cluster c (-1) = [([[1, 2], [3, 4]], [3, 4])] :=
  ⟨{ exCbc [(1, [1, 2]), (1/2, [3, 4])] [1, 2, 3, 4] [1, 2, 3, 4] with argsort := fun _ => [0, 1] },
    rfl, rfl, by decide +kernel, by decide +kernel⟩

/-- C72 is false: element 2 is no residue and in no committee: step 3 puts it into the committee, but the
extended committees are not returned. -/
theorem C72_false :
    ∃ c : Clustering ℚ Nat Nat, c.rowItems = c.elements ∧ 2 ∈ c.elements ∧
      cluster c (-1) = [([[1, 3]], [3])] ∧
      step3 c c.elements c.elements [[1, 3]] [4] = .ok ([3], [[1, 3, 2]]) :=
  ⟨exCbc [(1, [1, 3])] [1, 2, 3] [1, 2, 3], rfl, by decide, by decide +kernel, by decide +kernel⟩

/-- C78 is false: with the rows of the matrices in another order than the elements, element 1 is judged by the
row of element 4: the residues are 1 and 2, although 3 and 4 are the elements below theta2. -/
theorem C78_false_rows :
    ∃ c : Clustering ℚ Nat Nat, c.elements = [1, 2, 3, 4] ∧ c.rowItems.Perm c.elements ∧
      (∀ l, c.cos (c.rowVec 1) (c.commVec c.elements l) = 1 ∧ c.cos (c.rowVec 2) (c.commVec c.elements l) = 1 ∧
        c.cos (c.rowVec 3) (c.commVec c.elements l) = 0 ∧ c.cos (c.rowVec 4) (c.commVec c.elements l) = 0) ∧
      c.theta2 = 1/2 ∧ cluster c (-1) = [([[1, 2]], [1, 2])] :=
  ⟨exCbc [(1, [1, 2])] [1, 2, 3, 4] [4, 3, 2, 1], rfl, by decide, fun _ => ⟨rfl, rfl, rfl, rfl⟩, rfl,
    by decide +kernel⟩

/-- C78 is false: clustering a part of the rows of the matrices fails with an `IndexError`, and the result is
empty. -/
theorem C78_false_subset :
    ∃ c : Clustering ℚ Nat Nat, c.elements = [1, 2, 3] ∧ c.rowItems = [1, 2, 3, 4] ∧
      majorSteps c c.elements = .error .index ∧ cluster c (-1) = [([], [])] :=
  ⟨exCbc [(1, [1, 2])] [1, 2, 3] [1, 2, 3, 4], rfl, rfl, by decide +kernel, by decide +kernel⟩

/-- C72, partial: an element of a round that is no residue of it has a similarity of at least theta2 to one of
the committees returned, and a residue has not.  Missing: that the former is *in* a returned committee. -/
theorem C72_partial {c : Clustering K E V} {eles : List E} (hal : Aligned c eles)
    {r : List (List E) × List E} (h : majorSteps c eles = .ok r) :
    ∀ e ∈ eles, (e ∉ r.2 ↔ ∃ comm ∈ r.1, c.theta2 ≤ c.cos (c.rowVec e) (c.commVec eles comm)) := by
  intro e he
  rw [C45_round hal h]
  simp only [List.mem_filter, he, true_and, decide_eq_true_eq]
  push Not
  rfl

end Verif.Cbc
