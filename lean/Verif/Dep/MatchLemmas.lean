import Verif.Dep.Match
import Verif.Dep.PropsTree
import Mathlib.Data.List.Forall2
import Mathlib.Data.List.Flatten

set_option linter.unusedSectionVars false

/-!
# Lemmas on the level-by-level matching
-/

namespace Verif.Dep
open Verif.Py

/-! ### Dicts as lists -/

section
variable {κ ν : Type} [DecidableEq κ]

theorem set_new (d : Dict κ ν) (k : κ) (v : ν) (h : k ∉ Dict.keys d) : Dict.set d k v = d ++ [(k, v)] := by
  induction d with
  | nil => rfl
  | cons p d ih =>
    have h1 : p.1 ≠ k := fun e => h (by rw [← e]; simp [Dict.keys])
    have h2 : k ∉ Dict.keys d := fun e => h (by unfold Dict.keys at e ⊢; simp only [List.map_cons, List.mem_cons]; exact Or.inr e)
    unfold Dict.set
    rw [if_neg h1, ih h2]
    rfl

theorem update_disjoint (d e : Dict κ ν) (h : (Dict.keys d ++ Dict.keys e).Nodup) : Dict.update d e = d ++ e := by
  unfold Dict.update
  induction e generalizing d with
  | nil => simp
  | cons p e ih =>
    rw [List.foldl_cons]
    have hk : p.1 ∉ Dict.keys d := by
      intro hp
      have := (List.nodup_append.1 h).2.2 p.1 hp p.1 (by simp [Dict.keys])
      exact this rfl
    rw [set_new d p.1 p.2 hk, ih]
    · simp
    · unfold Dict.keys at h ⊢
      simpa using h

theorem ofPairs_nodup (ps : List (κ × ν)) (h : (ps.map Prod.fst).Nodup) : Dict.ofPairs ps = ps := by
  have := update_disjoint ([] : Dict κ ν) ps (by simpa [Dict.keys] using h)
  simpa [Dict.update, Dict.ofPairs] using this

/-- A dict with the values of a function. -/
theorem get?_graph {l : List κ} (f : κ → ν) (k : κ) : Dict.get? (l.map (fun x => (x, f x))) k = if k ∈ l then some (f k) else none := by
  induction l with
  | nil => rfl
  | cons a l ih =>
    rw [List.map_cons, Dict.get?_cons, ih]
    by_cases h : a = k
    · subst h; simp
    · rw [if_neg h]
      have : k ∈ a :: l ↔ k ∈ l := by simp [Ne.symm h]
      exact if_congr this.symm rfl rfl

theorem keys_graph (l : List κ) (f : κ → ν) : Dict.keys (l.map (fun x => (x, f x))) = l := by
  unfold Dict.keys
  rw [List.map_map]
  simp [Function.comp_def]

end

/-! ### Pure versions of the tests -/

section
variable (rx : String → String → Bool)

/-- All attributes of the pattern are there and match. -/
def attrB (pat item : Attrs) : Bool :=
  pat.all (fun e => match item.get? e.1 with
    | none => false
    | some v => rx e.2 v)

/-- All attributes of the pattern are there. -/
def Has (pat item : Attrs) : Prop := ∀ a ∈ pat.keys, a ∈ item.keys

theorem matchLoop_eq {pat item : Attrs} (h : Has pat item) : matchLoop rx pat item = .ok (attrB rx pat item) := by
  induction pat with
  | nil => rfl
  | cons e pat ih =>
    obtain ⟨a, re⟩ := e
    have ha : a ∈ item.keys := h a (by simp [Dict.keys])
    have ht : Has pat item := fun x hx => h x (by unfold Dict.keys at hx ⊢; simp only [List.map_cons, List.mem_cons]; exact Or.inr hx)
    obtain ⟨v, hv⟩ := Option.isSome_iff_exists.1 ((Dict.get?_isSome_iff item a).2 ha)
    unfold matchLoop
    rw [hv]
    simp only
    by_cases hr : rx re v = true
    · rw [if_pos hr, ih ht]
      unfold attrB
      rw [List.all_cons]
      simp only [hv, hr, Bool.true_and]
    · rw [if_neg hr]
      unfold attrB
      rw [List.all_cons]
      simp only [hv, hr, Bool.false_and]

theorem matchNodeLoop_eq {pat : Attrs} (item : Attrs) (h : "lid" ∉ pat.keys) : matchNodeLoop rx pat item = matchLoop rx pat item := by
  induction pat with
  | nil => rfl
  | cons e pat ih =>
    obtain ⟨a, re⟩ := e
    rw [Dict.keys_cons, List.mem_cons, not_or] at h
    unfold matchNodeLoop matchLoop
    cases item.get? a with
    | none => rfl
    | some v =>
      simp only
      rw [if_neg (fun e => h.1 e.symm), ih h.2]

/-- Node `y` of the sentence satisfies the conditions of pattern node `x`. -/
def nodeB (s p : Graph) (x y : Nat) : Bool :=
  match p.nodes.get? x, s.nodes.get? y with
  | some pat, some item => attrB rx pat item
  | _, _ => false

/-- Edge `f` of the sentence satisfies the conditions of pattern edge `e`. -/
def edgeB (s p : Graph) (e f : Nat × Nat) : Bool :=
  match p.edges.get? e, s.edges.get? f with
  | some pat, some item => attrB rx pat item
  | _, _ => false

/-- What is needed for the matching to run without `KeyError` and `TypeError`, and for conditions to be conditions: sentence graph in
order, every word has the attributes that the pattern asks for (nodes without any attribute, such as the artificial root 0,
excepted), every pattern node and edge asks for something, and no node for line numbers (or for file names, which matching adds to the
words in token mode). -/
structure Ready (s p : Graph) : Prop where
  nodesWF : s.nodes.WF
  edgesWF : s.edges.WF
  ends : ∀ u v, HasEdge s u v → u ∈ s.nodes.keys ∧ v ∈ s.nodes.keys
  nodeAttrs : ∀ x pat y item, p.nodes.get? x = some pat → s.nodes.get? y = some item → item ≠ [] → Has pat item
  edgeAttrs : ∀ x pat y item, p.edges.get? x = some pat → s.edges.get? y = some item → Has pat item
  nodeAsks : ∀ x pat, p.nodes.get? x = some pat → pat ≠ []
  edgeAsks : ∀ x pat, p.edges.get? x = some pat → pat ≠ []
  names : ∀ x pat, p.nodes.get? x = some pat → ∀ a ∈ Dict.keys pat, a ≠ "lid" ∧ a ≠ "FID" ∧ a ≠ "fid"

variable {rx} {s p : Graph} (R : Ready s p)
include R

theorem matchNode_eq {x y : Nat} {item : Attrs} (hx : x ∈ p.nodes.keys) (hy : s.nodes.get? y = some item) :
    matchNode rx p item x = .ok (nodeB rx s p x y) := by
  obtain ⟨pat, hp⟩ := Option.isSome_iff_exists.1 ((Dict.get?_isSome_iff p.nodes x).2 hx)
  have hne := R.nodeAsks x pat hp
  unfold matchNode nodeB
  rw [hp, hy]
  simp only
  by_cases hi : item = []
  · subst hi
    rw [if_pos rfl]
    obtain ⟨e, pat', rfl⟩ := List.exists_cons_of_ne_nil hne
    rfl
  · rw [if_neg hi]
    unfold matchNodeAttrs
    rw [matchNodeLoop_eq rx item (fun h => (R.names x pat hp _ h).1 rfl), matchLoop_eq rx (R.nodeAttrs x pat y item hp hy hi)]
    simp [hne]

theorem matchEdge_eq {e f : Nat × Nat} {item : Attrs} (he : e ∈ p.edges.keys) (hf : s.edges.get? f = some item) :
    matchEdge rx p item e = .ok (edgeB rx s p e f) := by
  obtain ⟨pat, hp⟩ := Option.isSome_iff_exists.1 ((Dict.get?_isSome_iff p.edges e).2 he)
  have hne := R.edgeAsks e pat hp
  unfold matchEdge edgeB
  rw [hp, hf]
  simp only
  unfold matchAttrs
  rw [matchLoop_eq rx (R.edgeAttrs e pat f item hp hf)]
  simp [hne]

/-! ### Successors -/

variable (rx s p) in
/-- `b` is a possible image of the dependent `y` of `x` if `x` goes to `a`. -/
def childB (x a y b : Nat) : Bool := nodeB rx s p y b && edgeB rx s p (x, y) (a, b)

theorem cands_eq {a x y : Nat} {one : Dict Nat Nat} (hxy : HasEdge p x y) (hy : y ∈ p.nodes.keys) (l : List Nat)
    (hl : ∀ b ∈ l, HasEdge s a b) :
    cands rx s p a x y one l = .ok (l.filter (fun b => decide (b ∉ one.keys) && childB rx s p x a y b)) := by
  induction l with
  | nil => rfl
  | cons b l ih =>
    have hb := hl b (by simp)
    have ih := ih (fun c hc => hl c (by simp [hc]))
    unfold cands
    rw [List.filter_cons]
    by_cases h1 : b ∈ one.keys
    · rw [if_pos h1, ih]
      simp [h1]
    · rw [if_neg h1]
      obtain ⟨vi, hv⟩ := Option.isSome_iff_exists.1 ((Dict.get?_isSome_iff s.nodes b).2 (R.ends _ _ hb).2)
      obtain ⟨ei, he⟩ := Option.isSome_iff_exists.1 ((Dict.get?_isSome_iff s.edges (a, b)).2 hb)
      rw [hv, he]
      simp only
      rw [matchNode_eq R hy hv, matchEdge_eq R (e := (x, y)) hxy he, ih]
      simp only [bind, Except.bind]
      unfold childB
      simp [h1]

omit R in
variable (rx s p) in
/-- The possible lists of images of the dependents `ys` of `x`, if `x` goes to `a`. -/
def choices (x a : Nat) : List Nat → List Nat → List (List Nat)
  | _, [] => [[]]
  | used, y :: ys => ((s.succ a).filter (fun b => decide (b ∉ used) && childB rx s p x a y b)).flatMap
      (fun b => (choices x a (used ++ [b]) ys).map (fun l => b :: l))

omit R in
theorem mapM_ok {γ δ : Type} (f : γ → Except Err δ) (g : γ → δ) (l : List γ) (h : ∀ x ∈ l, f x = .ok (g x)) :
    l.mapM f = .ok (l.map g) := by
  induction l with
  | nil => rfl
  | cons a l ih =>
    rw [List.mapM_cons, h a (by simp), ih (fun x hx => h x (by simp [hx]))]
    rfl

theorem foldlM_succStep {a x : Nat} (ys : List Nat) (hys : ∀ y ∈ ys, HasEdge p x y ∧ y ∈ p.nodes.keys) (M : List (Dict Nat Nat)) :
    ys.foldlM (succStep rx s p a x) M = .ok (M.flatMap (fun one => (choices rx s p x a one.keys ys).map (fun l => one ++ l.zip ys))) := by
  induction ys generalizing M with
  | nil => simp [choices, pure, Except.pure]
  | cons y ys ih =>
    have hy := hys y (by simp)
    rw [List.foldlM_cons]
    have h1 : succStep rx s p a x M y = .ok (M.flatMap (fun one =>
        ((s.succ a).filter (fun b => decide (b ∉ one.keys) && childB rx s p x a y b)).map (fun b => one ++ [(b, y)]))) := by
      unfold succStep
      rw [mapM_ok _ (fun one : Dict Nat Nat => ((s.succ a).filter (fun b => decide (b ∉ one.keys) && childB rx s p x a y b)).map (fun b => one ++ [(b, y)]))]
      · simp only [bind, Except.bind, List.flatMap_def]
      · intro one _
        unfold extendOne
        rw [cands_eq R hy.1 hy.2 _ (fun b hb => mem_succ.1 hb)]
        simp only [bind, Except.bind]
        congr 1
        refine List.map_congr_left ?_
        intro b hb
        have hb' := (List.mem_filter.1 hb).2
        simp only [Bool.and_eq_true, decide_eq_true_eq] at hb'
        exact set_new one b y hb'.1
    rw [h1]
    simp only [bind, Except.bind]
    rw [ih (fun z hz => hys z (by simp [hz]))]
    congr 1
    rw [List.flatMap_assoc]
    refine List.flatMap_congr ?_
    intro one _
    rw [List.flatMap_map]
    show _ = (choices rx s p x a one.keys (y :: ys)).map _
    rw [choices, List.map_flatMap]
    refine List.flatMap_congr ?_
    intro b _
    rw [List.map_map]
    have hk : Dict.keys (one ++ [(b, y)]) = one.keys ++ [b] := by unfold Dict.keys; simp
    rw [hk]
    refine List.map_congr_left ?_
    intro l _
    simp

omit R in
theorem mem_choices {a x : Nat} (used ys : List Nat) (l : List Nat) :
    l ∈ choices rx s p x a used ys ↔
      List.Forall₂ (fun y b => HasEdge s a b ∧ childB rx s p x a y b = true) ys l ∧ l.Nodup ∧ ∀ b ∈ l, b ∉ used := by
  induction ys generalizing used l with
  | nil =>
    rw [choices, List.mem_singleton]
    constructor
    · rintro rfl; exact ⟨.nil, List.nodup_nil, by simp⟩
    · rintro ⟨h, _⟩; cases h; rfl
  | cons y ys ih =>
    rw [choices, List.mem_flatMap]
    constructor
    · rintro ⟨b, hb, hl⟩
      obtain ⟨l', hl', rfl⟩ := List.mem_map.1 hl
      obtain ⟨h1, h2, h3⟩ := (ih _ _).1 hl'
      obtain ⟨hb1, hb2⟩ := List.mem_filter.1 hb
      simp only [Bool.and_eq_true, decide_eq_true_eq] at hb2
      refine ⟨.cons ⟨mem_succ.1 hb1, hb2.2⟩ h1, ?_, ?_⟩
      · rw [List.nodup_cons]
        exact ⟨fun hm => h3 b hm (by simp), h2⟩
      · intro c hc
        rcases List.mem_cons.1 hc with rfl | hc
        · exact hb2.1
        · exact fun hu => h3 c hc (by simp [hu])
    · rintro ⟨h1, h2, h3⟩
      cases h1 with
      | cons hyb hrest =>
        rename_i b l'
        rw [List.nodup_cons] at h2
        refine ⟨b, List.mem_filter.2 ⟨mem_succ.2 hyb.1, ?_⟩, List.mem_map.2 ⟨l', (ih _ _).2 ⟨hrest, h2.2, ?_⟩, rfl⟩⟩
        · simp only [Bool.and_eq_true, decide_eq_true_eq]
          exact ⟨h3 b (by simp), hyb.2⟩
        · intro c hc hu
          rcases List.mem_append.1 hu with hu | hu
          · exact h3 c (by simp [hc]) hu
          · rw [List.mem_singleton.1 hu] at hc
            exact h2.1 hc

theorem choices_nodup {a x : Nat} (used ys : List Nat) : (choices rx s p x a used ys).Nodup := by
  induction ys generalizing used with
  | nil => simp [choices]
  | cons y ys ih =>
    rw [choices, List.nodup_flatMap]
    constructor
    · intro b _
      exact (ih _).map (fun _ _ h => (List.cons.inj h).2)
    · refine ((succ_nodup R.edgesWF a).filter _).imp ?_
      intro b c hbc l hl hl'
      obtain ⟨_, _, rfl⟩ := List.mem_map.1 hl
      obtain ⟨_, _, h⟩ := List.mem_map.1 hl'
      exact hbc (List.cons.inj h).1.symm

omit R in
theorem invert_zip {l ys : List Nat} (hys : ys.Nodup) (hlen : l.length = ys.length) : invert (l.zip ys) = ys.zip l := by
  unfold invert
  have e : (l.zip ys).map (fun e => (e.2, e.1)) = ys.zip l := by
    clear hys
    induction l generalizing ys with
    | nil => cases ys <;> rfl
    | cons b l ih => cases ys with
      | nil => rfl
      | cons y ys => simpa using ih (by simpa using hlen)
  rw [e]
  apply ofPairs_nodup
  rw [List.map_fst_zip (by omega)]
  exact hys

/-- `match_successors` gives the images of the dependents in all possible ways. -/
theorem matchSuccessors_eq {a x : Nat} {r : Nat} (T : RootedTree p r) :
    matchSuccessors rx s a p x = .ok ((choices rx s p x a [] (p.succ x)).map (fun l => (p.succ x).zip l)) := by
  unfold matchSuccessors
  by_cases h0 : p.outDeg x = 0
  · rw [if_pos h0]
    have : p.succ x = [] := List.length_eq_zero_iff.1 h0
    rw [this]
    simp [choices]
  · rw [if_neg h0, foldlM_succStep R _ (fun y hy => ⟨mem_succ.1 hy, (T.ends _ _ (mem_succ.1 hy)).2⟩)]
    simp only [bind, Except.bind, List.flatMap_cons, List.flatMap_nil, List.append_nil, List.map_map]
    congr 1
    refine List.map_congr_left ?_
    intro l hl
    have hlen := ((mem_choices _ _ _).1 hl).1.length_eq
    simp only [Function.comp_def, List.nil_append]
    exact invert_zip (succ_nodup T.edgesWF x) hlen.symm

/-! ### One level -/

omit R in
variable (rx s p) in
/-- All maps of the dependents of the keys of a level map. -/
def levelMaps : List (Nat × Nat) → List (List (Nat × Nat))
  | [] => [[]]
  | (x, a) :: rest => (choices rx s p x a [] (p.succ x)).flatMap (fun l => (levelMaps rest).map (fun m => (p.succ x).zip l ++ m))

theorem matchLevelGo_eq {r : Nat} (T : RootedTree p r) (prev : List (Nat × Nat)) (K : List Nat) (cur : List (Dict Nat Nat))
    (hK : ∀ d ∈ cur, Dict.keys d = K) (hnd : (K ++ (prev.map Prod.fst).flatMap p.succ).Nodup) :
    ∃ o, matchLevelGo rx s p prev cur = .ok o ∧ o.getD [] = cur.flatMap (fun d => (levelMaps rx s p prev).map (fun m => d ++ m)) := by
  induction prev generalizing K cur with
  | nil => exact ⟨some cur, rfl, by simp [levelMaps]⟩
  | cons e prev ih =>
    obtain ⟨x, a⟩ := e
    have hnd' : (K ++ (p.succ x ++ (prev.map Prod.fst).flatMap p.succ)).Nodup := by simpa using hnd
    rw [← List.append_assoc] at hnd'
    have hndL := (List.nodup_append.1 hnd').1
    unfold matchLevelGo
    by_cases h0 : p.outDeg x = 0
    · rw [if_pos h0]
      have hs : p.succ x = [] := List.length_eq_zero_iff.1 h0
      rw [hs, List.append_nil] at hnd'
      obtain ⟨o, h1, h2⟩ := ih K cur hK hnd'
      refine ⟨o, h1, ?_⟩
      rw [h2, levelMaps, hs]
      simp [choices]
    · rw [if_neg h0, matchSuccessors_eq R T]
      simp only [bind, Except.bind]
      by_cases hc : choices rx s p x a [] (p.succ x) = []
      · rw [hc]
        simp only [List.map_nil, if_true]
        refine ⟨none, rfl, ?_⟩
        rw [levelMaps, hc]
        simp
      · rw [if_neg (by simpa using hc)]
        have hcur : cur.flatMap (fun prevone => ((choices rx s p x a [] (p.succ x)).map (fun l => (p.succ x).zip l)).map
            (fun onemap => Dict.update prevone onemap)) =
            cur.flatMap (fun d => (choices rx s p x a [] (p.succ x)).map (fun l => d ++ (p.succ x).zip l)) := by
          refine List.flatMap_congr ?_
          intro d hd
          rw [List.map_map]
          refine List.map_congr_left ?_
          intro l hl
          have hlen := ((mem_choices _ _ _).1 hl).1.length_eq
          refine update_disjoint d _ ?_
          rw [hK d hd]
          have : Dict.keys ((p.succ x).zip l) = p.succ x := by
            unfold Dict.keys; exact List.map_fst_zip (by omega)
          rw [this]
          exact hndL
        rw [hcur]
        have hK' : ∀ d ∈ cur.flatMap (fun d => (choices rx s p x a [] (p.succ x)).map (fun l => d ++ (p.succ x).zip l)),
            Dict.keys d = K ++ p.succ x := by
          intro d hd
          obtain ⟨d', hd', hdl⟩ := List.mem_flatMap.1 hd
          obtain ⟨l, hl, rfl⟩ := List.mem_map.1 hdl
          have hlen := ((mem_choices _ _ _).1 hl).1.length_eq
          have h1 := hK d' hd'
          unfold Dict.keys at h1 ⊢
          rw [List.map_append, h1, List.map_fst_zip (by omega)]
        obtain ⟨o, h1, h2⟩ := ih (K ++ p.succ x) _ hK' hnd'
        refine ⟨o, h1, ?_⟩
        rw [h2, List.flatMap_assoc]
        refine List.flatMap_congr ?_
        intro d _
        rw [List.flatMap_map, levelMaps, List.map_flatMap]
        refine List.flatMap_congr ?_
        intro l _
        rw [List.map_map]
        refine List.map_congr_left ?_
        intro m _
        simp [List.append_assoc]

theorem levelMaps_nodup {r : Nat} (T : RootedTree p r) (prev : List (Nat × Nat)) : (levelMaps rx s p prev).Nodup := by
  induction prev with
  | nil => simp [levelMaps]
  | cons e prev ih =>
    obtain ⟨x, a⟩ := e
    rw [levelMaps, List.nodup_flatMap]
    constructor
    · intro l _
      exact ih.map (fun _ _ h => List.append_cancel_left h)
    · have hn := choices_nodup (rx := rx) R (a := a) (x := x) [] (p.succ x)
      refine List.Pairwise.imp_of_mem ?_ hn
      intro l l' hl hl' hne m hm hm'
      obtain ⟨m1, _, rfl⟩ := List.mem_map.1 hm
      obtain ⟨m2, _, h⟩ := List.mem_map.1 hm'
      have e1 := ((mem_choices _ _ _).1 hl).1.length_eq
      have e2 := ((mem_choices _ _ _).1 hl').1.length_eq
      have h3 := List.append_inj_left h (by rw [List.length_zip, List.length_zip]; omega)
      have : l' = l := by
        have := congrArg (List.map Prod.snd) h3
        rwa [List.map_snd_zip (by omega), List.map_snd_zip (by omega)] at this
      exact hne this.symm

omit R in
/-- A list along another one without repetition is given by a function. -/
theorem exists_map {K : List Nat} (hK : K.Nodup) {l : List Nat} (hlen : K.length = l.length) : ∃ θ : Nat → Nat, l = K.map θ := by
  induction K generalizing l with
  | nil => exact ⟨id, by simpa using (List.length_eq_zero_iff.1 hlen.symm)⟩
  | cons k K ih =>
    cases l with
    | nil => simp at hlen
    | cons b l =>
      rw [List.nodup_cons] at hK
      obtain ⟨θ, hθ⟩ := ih hK.2 (by simpa using hlen)
      refine ⟨fun x => if x = k then b else θ x, ?_⟩
      rw [List.map_cons, if_pos rfl, hθ]
      congr 1
      refine List.map_congr_left ?_
      intro x hx
      rw [if_neg (by rintro rfl; exact hK.1 hx)]

variable (rx s p) in
omit R in
/-- The dependents of `x` go to different dependents of `a`, satisfying their conditions. -/
def GoodAt (x a : Nat) (ψ : Nat → Nat) : Prop :=
  (∀ y, HasEdge p x y → HasEdge s a (ψ y) ∧ childB rx s p x a y (ψ y) = true) ∧ ((p.succ x).map ψ).Nodup

omit R in
theorem goodAt_congr {x a : Nat} {ψ χ : Nat → Nat} (h : ∀ y ∈ p.succ x, ψ y = χ y) (hg : GoodAt rx s p x a ψ) : GoodAt rx s p x a χ := by
  refine ⟨fun y hy => ?_, ?_⟩
  · rw [← h y (mem_succ.2 hy)]; exact hg.1 y hy
  · rw [← List.map_congr_left h]; exact hg.2

omit R in
theorem mem_choices_map {x a : Nat} {ψ : Nat → Nat} : (p.succ x).map ψ ∈ choices rx s p x a [] (p.succ x) ↔ GoodAt rx s p x a ψ := by
  rw [mem_choices, List.forall₂_map_right_iff, List.forall₂_same]
  unfold GoodAt
  simp only [mem_succ, List.not_mem_nil, not_false_eq_true, implies_true, and_true]

omit R in
theorem zip_map_self (K : List Nat) (ψ : Nat → Nat) : K.zip (K.map ψ) = K.map (fun y => (y, ψ y)) := by
  induction K with
  | nil => rfl
  | cons k K ih => simp [ih]

theorem mem_levelMaps {r : Nat} (T : RootedTree p r) (K : List Nat) (hK : (K.flatMap p.succ).Nodup) (φ : Nat → Nat) (m : List (Nat × Nat)) :
    m ∈ levelMaps rx s p (K.map (fun x => (x, φ x))) ↔
      ∃ ψ, m = (K.flatMap p.succ).map (fun y => (y, ψ y)) ∧ ∀ x ∈ K, GoodAt rx s p x (φ x) ψ := by
  induction K generalizing m with
  | nil => simp [levelMaps]
  | cons k K ih =>
    rw [List.flatMap_cons] at hK ⊢
    obtain ⟨n1, n2, n3⟩ := List.nodup_append.1 hK
    rw [List.map_cons, levelMaps, List.mem_flatMap]
    constructor
    · rintro ⟨l, hl, hm⟩
      obtain ⟨m', hm', rfl⟩ := List.mem_map.1 hm
      obtain ⟨ψ, rfl, hψ⟩ := (ih n2 m').1 hm'
      obtain ⟨θ, rfl⟩ := exists_map n1 ((mem_choices _ _ _).1 hl).1.length_eq
      have hg := mem_choices_map.1 hl
      refine ⟨fun y => if y ∈ p.succ k then θ y else ψ y, ?_, ?_⟩
      · rw [zip_map_self, List.map_append]
        congr 1
        · exact List.map_congr_left (fun y hy => by simp only; rw [if_pos hy])
        · refine List.map_congr_left (fun y hy => ?_)
          simp only
          rw [if_neg (fun h => n3 y h y hy rfl)]
      · intro x hx
        rcases List.mem_cons.1 hx with rfl | hx
        · exact goodAt_congr (fun y hy => by rw [if_pos hy]) hg
        · refine goodAt_congr (fun y hy => ?_) (hψ x hx)
          rw [if_neg (fun h => n3 y h y (List.mem_flatMap.2 ⟨x, hx, hy⟩) rfl)]
    · rintro ⟨ψ, rfl, hψ⟩
      refine ⟨(p.succ k).map ψ, mem_choices_map.2 (hψ k (by simp)), List.mem_map.2 ⟨(K.flatMap p.succ).map (fun y => (y, ψ y)),
        (ih n2 _).2 ⟨ψ, rfl, fun x hx => hψ x (by simp [hx])⟩, ?_⟩⟩
      rw [zip_map_self, List.map_append]

/-! ### All levels -/

variable (rx s p) in
omit R in
/-- The partial matches after `k` rounds. -/
def rounds (r v : Nat) : Nat → List (List (Dict Nat Nat))
  | 0 => [[[(r, v)]]]
  | k + 1 => (rounds r v k).flatMap (fun lm => (levelMaps rx s p (lm.getLastD [])).map (fun m => lm ++ [m]))

variable (p) in
omit R in
/-- The level maps of a function. -/
def levelsOf (r : Nat) (φ : Nat → Nat) (k : Nat) : List (Dict Nat Nat) :=
  (List.range k).map (fun i => (levels p r i).map (fun x => (x, φ x)))

variable (rx s p) in
omit R in
/-- `φ` is a match of the first `k+1` levels with the root at `v`. -/
def GoodUpTo (r v : Nat) (φ : Nat → Nat) (k : Nat) : Prop :=
  φ r = v ∧ ∀ i < k, ∀ x ∈ levels p r i, GoodAt rx s p x (φ x) φ

theorem mem_rounds {r : Nat} (T : RootedTree p r) (v k : Nat) (lm : List (Dict Nat Nat)) :
    lm ∈ rounds rx s p r v k ↔ ∃ φ, lm = levelsOf p r φ (k + 1) ∧ GoodUpTo rx s p r v φ k := by
  induction k generalizing lm with
  | zero =>
    rw [rounds, List.mem_singleton]
    constructor
    · rintro rfl
      exact ⟨fun _ => v, rfl, rfl, fun i hi => absurd hi (Nat.not_lt_zero i)⟩
    · rintro ⟨φ, rfl, hφ, _⟩
      simp [levelsOf, levels, hφ]
  | succ k ih =>
    have hlast : ∀ φ, (levelsOf p r φ (k + 1)).getLastD [] = (levels p r k).map (fun x => (x, φ x)) := by
      intro φ
      unfold levelsOf
      rw [List.range_succ, List.map_append]
      simp
    have hnext : ∀ φ, levelsOf p r φ (k + 2) = levelsOf p r φ (k + 1) ++ [(levels p r (k + 1)).map (fun x => (x, φ x))] := by
      intro φ
      unfold levelsOf
      rw [List.range_succ, List.map_append]
      rfl
    have hnd : ((levels p r k).flatMap p.succ).Nodup := T.levels_nodup (k + 1)
    rw [rounds, List.mem_flatMap]
    constructor
    · rintro ⟨lm0, hlm0, hlm⟩
      obtain ⟨m, hm, rfl⟩ := List.mem_map.1 hlm
      obtain ⟨φ, rfl, hφ, hgood⟩ := (ih lm0).1 hlm0
      rw [hlast] at hm
      obtain ⟨ψ, rfl, hψ⟩ := (mem_levelMaps R T _ hnd φ m).1 hm
      have hχ : ∀ i, i ≤ k → ∀ x ∈ levels p r i, (if x ∈ levels p r (k + 1) then ψ x else φ x) = φ x := by
        intro i hi x hx
        rw [if_neg]
        intro hx'
        have := T.levels_disjoint hx hx'
        omega
      refine ⟨fun x => if x ∈ levels p r (k + 1) then ψ x else φ x, ?_, ?_, ?_⟩
      · rw [hnext]
        congr 1
        · unfold levelsOf
          refine List.map_congr_left ?_
          intro i hi
          refine List.map_congr_left ?_
          intro x hx
          exact congrArg (Prod.mk x) (hχ i (by have := List.mem_range.1 hi; omega) x hx).symm
        · congr 1
          refine List.map_congr_left ?_
          intro x hx
          exact congrArg (Prod.mk x) (if_pos hx).symm
      · show (if r ∈ levels p r (k + 1) then ψ r else φ r) = v
        rw [hχ 0 (Nat.zero_le k) r (by simp [levels]), hφ]
      · intro i hi x hx
        simp only
        rw [hχ i (by omega) x hx]
        rcases Nat.lt_or_ge i k with hlt | hge
        · refine goodAt_congr (fun y hy => ?_) (hgood i hlt x hx)
          rw [hχ (i + 1) (by omega) y (mem_levels_succ.2 ⟨x, hx, mem_succ.1 hy⟩)]
        · have hik : i = k := by omega
          subst hik
          refine goodAt_congr (fun y hy => ?_) (hψ x hx)
          rw [if_pos (mem_levels_succ.2 ⟨x, hx, mem_succ.1 hy⟩)]
    · rintro ⟨φ, rfl, hφ, hgood⟩
      refine ⟨levelsOf p r φ (k + 1), (ih _).2 ⟨φ, rfl, hφ, fun i hi => hgood i (by omega)⟩, ?_⟩
      rw [hnext, hlast]
      refine List.mem_map.2 ⟨_, (mem_levelMaps R T _ hnd φ _).2 ⟨φ, rfl, fun x hx => hgood k (by omega) x hx⟩, rfl⟩

theorem rounds_nodup {r : Nat} (T : RootedTree p r) (v k : Nat) : (rounds rx s p r v k).Nodup := by
  induction k with
  | zero => simp [rounds]
  | succ k ih =>
    rw [rounds, List.nodup_flatMap]
    constructor
    · intro lm _
      exact (levelMaps_nodup R T _).map (fun a b h => by simpa using h)
    · refine ih.imp ?_
      intro a b hab x hx hx'
      obtain ⟨_, _, rfl⟩ := List.mem_map.1 hx
      obtain ⟨_, _, h⟩ := List.mem_map.1 hx'
      exact hab (List.append_inj_left' h rfl).symm

theorem nextLevel_eq {r : Nat} (T : RootedTree p r) (φ : Nat → Nat) (k : Nat) :
    nextLevel rx s p (levelsOf p r φ (k + 1)) =
      .ok ((levelMaps rx s p ((levelsOf p r φ (k + 1)).getLastD [])).map (fun m => levelsOf p r φ (k + 1) ++ [m])) := by
  have hl : (levelsOf p r φ (k + 1)).getLast? = some ((levels p r k).map (fun x => (x, φ x))) := by
    unfold levelsOf
    rw [List.range_succ, List.map_append]
    simp
  have hl' : (levelsOf p r φ (k + 1)).getLastD [] = (levels p r k).map (fun x => (x, φ x)) := by
    unfold levelsOf
    rw [List.range_succ, List.map_append]
    simp
  unfold nextLevel
  rw [hl, hl']
  simp only
  unfold matchLevel
  have hmap : ((levels p r k).map (fun x => (x, φ x))).map Prod.fst = levels p r k := keys_graph _ φ
  obtain ⟨o, h1, h2⟩ := matchLevelGo_eq (rx := rx) R T ((levels p r k).map (fun x => (x, φ x))) [] [[]] (by simp [Dict.keys])
    (by rw [hmap]; exact T.levels_nodup (k + 1))
  rw [h1]
  simp only [bind, Except.bind]
  have h3 : o.getD [] = levelMaps rx s p ((levels p r k).map (fun x => (x, φ x))) := by rw [h2]; simp
  cases o with
  | none =>
    simp only [Option.getD_none] at h3
    simp only
    rw [← h3]
    rfl
  | some l =>
    simp only [Option.getD_some] at h3
    simp only
    rw [h3]

theorem subtree_eq {r : Nat} (T : RootedTree p r) (v depth : Nat) (n k : Nat) (hk : k + 1 ≤ depth) (hn : depth < n + k + 1) :
    subtree rx s p depth n (rounds rx s p r v k) = .ok (rounds rx s p r v (depth - 1)) := by
  induction n generalizing k with
  | zero => omega
  | succ n ih =>
    unfold subtree
    have hempty : ∀ j, rounds rx s p r v k = [] → rounds rx s p r v (k + j) = [] := by
      intro j h0
      induction j with
      | zero => exact h0
      | succ j ihj => rw [← Nat.add_assoc, rounds, ihj]; rfl
    cases hr : rounds rx s p r v k with
    | nil =>
      simp only
      have := hempty (depth - 1 - k) hr
      rw [show k + (depth - 1 - k) = depth - 1 by omega] at this
      rw [this]
    | cons l ls =>
      simp only
      have hlen : l.length = k + 1 := by
        obtain ⟨φ, rfl, _⟩ := (mem_rounds R T v k l).1 (by rw [hr]; simp)
        simp [levelsOf]
      rw [hlen]
      by_cases hd : k + 1 = depth
      · rw [if_pos hd]
        subst hd
        rw [Nat.add_sub_cancel, hr]
      · rw [if_neg hd, ← hr]
        rw [mapM_ok _ (fun lm => (levelMaps rx s p (lm.getLastD [])).map (fun m => lm ++ [m]))]
        · simp only [bind, Except.bind]
          rw [← List.flatMap_def]
          exact ih (k + 1) (by omega) (by omega)
        · intro lm hlm
          obtain ⟨φ, rfl, _⟩ := (mem_rounds R T v k lm).1 hlm
          exact nextLevel_eq R T φ k

/-- The merged map of all levels. -/
theorem mergeLevels_eq {r : Nat} (T : RootedTree p r) (φ : Nat → Nat) (k : Nat) :
    mergeLevels (levelsOf p r φ k) = ((List.range k).flatMap (levels p r)).map (fun x => (x, φ x)) := by
  induction k with
  | zero => rfl
  | succ k ih =>
    have h1 : levelsOf p r φ (k + 1) = levelsOf p r φ k ++ [(levels p r k).map (fun x => (x, φ x))] := by
      unfold levelsOf
      rw [List.range_succ, List.map_append]
      rfl
    have h2 : (List.range (k + 1)).flatMap (levels p r) = (List.range k).flatMap (levels p r) ++ levels p r k := by
      rw [List.range_succ, List.flatMap_append]; simp
    unfold mergeLevels at ih ⊢
    rw [h1, List.foldl_append, ih, h2, List.map_append]
    simp only [List.foldl_cons, List.foldl_nil]
    refine update_disjoint _ _ ?_
    rw [keys_graph, keys_graph, ← h2]
    exact T.upTo_nodup (k + 1)

end

end Verif.Dep
