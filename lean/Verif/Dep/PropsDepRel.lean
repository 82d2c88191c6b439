import Verif.Dep.DepRel
import Verif.Dep.PropsFile
import Verif.Cooc.Props
import Verif.Engine.Props

set_option linter.unusedSectionVars false

/-!
# C67: the matrix of matches; C70: from corpus files to the matrix
-/

namespace Verif.Dep
open Verif.Py Verif.Window Verif.Engine Verif.Matrix Verif.Cooc

section
variable {κ : Type} [LinearOrder κ]

theorem sortedSet_spec (l : List κ) : (sortedSet l).Nodup ∧ (sortedSet l).Pairwise (· ≤ ·) ∧ ∀ x, x ∈ sortedSet l ↔ x ∈ l := by
  have hp := sortedBy_perm (id : κ → κ) l.dedup
  refine ⟨hp.nodup_iff.2 (List.nodup_dedup l), sortedBy_pairwise (id : κ → κ) l.dedup, fun x => ?_⟩
  unfold sortedSet
  rw [hp.mem_iff, List.mem_dedup]

/-- The counts: stored exactly for the pairs that occur. -/
theorem bump_fold (ps : List (κ × κ)) : ∀ d : Nested κ, WF2 d → WF2 (ps.foldl (fun d p => bump d p.1 p.2) d) ∧
    (∀ t c, cell (ps.foldl (fun d p => bump d p.1 p.2) d) t c = cell d t c + (ps.countP (fun p => decide (p = (t, c))) : Nat)) ∧
    ∀ t c, (at2 (ps.foldl (fun d p => bump d p.1 p.2) d) t c).isSome ↔ (at2 d t c).isSome ∨ (t, c) ∈ ps := by
  induction ps with
  | nil => intro d h; exact ⟨h, by simp, by simp⟩
  | cons p ps ih =>
    intro d h
    rw [List.foldl_cons]
    obtain ⟨i1, i2, i3⟩ := ih (bump d p.1 p.2) (WF2_set h _ _ _)
    refine ⟨i1, fun t c => ?_, fun t c => ?_⟩
    · rw [i2, cell_bump, List.countP_cons]
      have : (p = (t, c)) ↔ (p.1 = t ∧ p.2 = c) := Prod.ext_iff
      by_cases hp : p = (t, c)
      · rw [if_pos (this.1 hp)]; simp [hp]; ring
      · rw [if_neg (fun h => hp (this.2 h))]; simp [hp]
    · rw [i3]
      have hb : at2 (bump d p.1 p.2) t c = if p.1 = t ∧ p.2 = c then some ((((d.get? p.1).getD []).get? p.2).getD 0 + 1) else at2 d t c :=
        at2_set d p.1 p.2 _ t c
      rw [hb, List.mem_cons]
      by_cases hp : p.1 = t ∧ p.2 = c
      · rw [if_pos hp]
        simp [Prod.ext_iff, hp.1, hp.2]
      · rw [if_neg hp]
        have : ¬ ((t, c) = p) := fun e => hp ⟨by rw [← e], by rw [← e]⟩
        simp [this]

/-- **C67**: the matrix of a non-empty list of (target, feature) pairs has the distinct targets and features, sorted, as
items, and counts the pairs. -/
theorem C67_counts (ps : List (κ × κ)) (hne : ps ≠ []) :
    ∃ m, pairMatrix ps = .ok m ∧ Valid m ∧ IsCsr m ∧ (m.rows.Pairwise (· ≤ ·) ∧ ∀ t, t ∈ m.rows ↔ ∃ f, (t, f) ∈ ps) ∧
      (m.cols.Pairwise (· ≤ ·) ∧ ∀ f, f ∈ m.cols ↔ ∃ t, (t, f) ∈ ps) ∧
      ∀ t f, entry m t f = (ps.countP (fun p => decide (p = (t, f))) : Nat) := by
  obtain ⟨r1, r2, r3⟩ := sortedSet_spec (ps.map Prod.fst)
  obtain ⟨c1, c2, c3⟩ := sortedSet_spec (ps.map Prod.snd)
  obtain ⟨b1, b2, b3⟩ := bump_fold ps [] ⟨Dict.WF_nil, fun r h => (nomatch h)⟩
  have hmem : ∀ t c, (t, c) ∈ ps → t ∈ sortedSet (ps.map Prod.fst) ∧ c ∈ sortedSet (ps.map Prod.snd) := by
    intro t c h
    exact ⟨(r3 t).2 (List.mem_map.2 ⟨_, h, rfl⟩), (c3 c).2 (List.mem_map.2 ⟨_, h, rfl⟩)⟩
  obtain ⟨s, h1, h2, h3, h4⟩ := dictToSp_entry b1 r1 c1 (by
      intro t c v h
      have := (b3 t c).1 (by rw [h]; rfl)
      simp only [at2, Dict.get?_nil, Option.bind_none, Option.isSome_none, Bool.false_eq_true, false_or] at this
      exact hmem t c this) (by
      obtain ⟨p, ps', rfl⟩ := List.exists_cons_of_ne_nil hne
      obtain ⟨v, hv⟩ := Option.isSome_iff_exists.1 ((b3 p.1 p.2).2 (Or.inr (by simp)))
      exact ⟨_, _, v, hv⟩)
  refine ⟨⟨.sp s, _, _⟩, ?_, h2, ⟨s, rfl, h3⟩, ⟨r2, fun t => ?_⟩, ⟨c2, fun f => ?_⟩, fun t f => ?_⟩
  · unfold pairMatrix dict2matrix
    rw [h1]
    exact mkMtx_sp h2.nr h2.nc
  · show t ∈ sortedSet _ ↔ _
    rw [r3]
    simp
  · show f ∈ sortedSet _ ↔ _
    rw [c3]
    simp
  · rw [h4, ← cell_at2, b2]
    simp [cell]

/-- **C67**: without any match there is no matrix but a `ValueError`. -/
theorem C67_none : pairMatrix ([] : List (κ × κ)) = .error .valueError := rfl

end

/-- The value satisfies `p`. -/
def okAnd {δ : Type} (p : δ → Bool) : Except Err δ → Bool
  | .ok y => p y
  | .error _ => false

theorem mapM_countP {γ δ : Type} (g : γ → Except Err δ) (p : δ → Bool) (l : List γ) (ys : List δ) (h : l.mapM g = .ok ys) :
    ys.countP p = l.countP (fun x => okAnd p (g x)) := by
  induction l generalizing ys with
  | nil => cases h; rfl
  | cons x l ih =>
    rw [List.mapM_cons] at h
    cases hx : g x with
    | error e => rw [hx] at h; cases h
    | ok y =>
      rw [hx] at h
      cases hl : l.mapM g with
      | error e => rw [hl] at h; cases h
      | ok ys' =>
        rw [hl] at h
        cases h
        rw [List.countP_cons, List.countP_cons, ih ys' hl, hx]
        rfl

theorem mem_mapM {γ δ : Type} (g : γ → Except Err δ) (l : List γ) (ys : List δ) (h : l.mapM g = .ok ys) (y : δ) :
    y ∈ ys ↔ ∃ x ∈ l, g x = .ok y := by
  induction l generalizing ys with
  | nil => cases h; simp
  | cons x l ih =>
    rw [List.mapM_cons] at h
    cases hx : g x with
    | error e => rw [hx] at h; cases h
    | ok y' =>
      rw [hx] at h
      cases hl : l.mapM g with
      | error e => rw [hl] at h; cases h
      | ok ys' =>
        rw [hl] at h
        cases h
        rw [List.mem_cons, ih ys' hl]
        simp only [List.mem_cons, exists_eq_or_imp, hx, Except.ok.injEq]
        constructor
        · rintro (rfl | h)
          · exact Or.inl rfl
          · exact Or.inr h
        · rintro (rfl | h)
          · exact Or.inl rfl
          · exact Or.inr h

theorem mapM_mem_ok {γ δ : Type} {g : γ → Except Err δ} {l : List γ} {ys : List δ} (h : l.mapM g = .ok ys) {x : γ} (hx : x ∈ l) :
    ∃ y, g x = .ok y := by
  induction l generalizing ys with
  | nil => cases hx
  | cons z l ih =>
    rw [List.mapM_cons] at h
    cases hz : g z with
    | error e => rw [hz] at h; cases h
    | ok y =>
      rw [hz] at h
      cases hl : l.mapM g with
      | error e => rw [hl] at h; cases h
      | ok ys' =>
        rcases List.mem_cons.1 hx with rfl | hx
        · exact ⟨y, hz⟩
        · exact ih hl hx

/-- Whether a match has the strings `t` and `f`. -/
def hasStrings (grp : String → String → Nat → Option String) (tok : Bool) (m : Macro) (t f : String) (mt : Match) : Bool :=
  decide (targetStr grp tok m mt = .ok t) && decide (featureStr grp m mt = .ok f)

theorem pairOf_match (grp : String → String → Nat → Option String) (tok : Bool) (m : Macro) (t f : String) (mt : Match) :
    okAnd (fun y => decide (y = (t, f))) (pairOf grp tok m mt) = hasStrings grp tok m t f mt := by
  unfold pairOf hasStrings okAnd
  cases h1 : targetStr grp tok m mt with
  | error e => simp [bind, Except.bind]
  | ok t' =>
    cases h2 : featureStr grp m mt with
    | error e => simp [bind, Except.bind]
    | ok f' => simp [bind, Except.bind, Prod.ext_iff, Bool.decide_and]

theorem macroPairs_count {grp : String → String → Nat → Option String} {tok : Bool} {m : Macro} {ps : List (String × String)}
    (h : macroPairs grp tok m = .ok ps) (t f : String) :
    ps.countP (fun p => decide (p = (t, f))) = m.found.countP (hasStrings grp tok m t f) := by
  rw [mapM_countP _ _ _ _ h]
  congr 1
  funext mt
  exact pairOf_match grp tok m t f mt

theorem matchPairs_count {grp : String → String → Nat → Option String} {tok : Bool} {ms : List Macro} {ps : List (String × String)}
    (h : matchPairs grp tok ms = .ok ps) (t f : String) :
    ps.countP (fun p => decide (p = (t, f))) = (ms.map (fun m => m.found.countP (hasStrings grp tok m t f))).sum := by
  unfold matchPairs at h
  cases hl : ms.mapM (macroPairs grp tok) with
  | error e => rw [hl] at h; cases h
  | ok l =>
    rw [hl] at h
    cases h
    induction ms generalizing l with
    | nil => cases hl; rfl
    | cons m ms ih =>
      rw [List.mapM_cons] at hl
      cases hm : macroPairs grp tok m with
      | error e => rw [hm] at hl; cases hl
      | ok ps =>
        rw [hm] at hl
        cases hms : ms.mapM (macroPairs grp tok) with
        | error e => rw [hms] at hl; cases hl
        | ok l' =>
          rw [hms] at hl
          cases hl
          rw [List.flatten_cons, List.countP_append, ih l' hms, List.map_cons, List.sum_cons, macroPairs_count hm]

/-- **C67** for the recorded matches of macros: whenever `build_matrix_by_matches` returns a matrix, its entry for target `t`
and feature `f` is the number of recorded matches, over all macros, with these strings; it returns one if all strings can be read
off and there is a match, and raises `ValueError` if there is none. -/
theorem C67_partial (grp : String → String → Nat → Option String) (tok : Bool) (ms : List Macro)
    (hok : ∃ ps, matchPairs grp tok ms = .ok ps) (hne : ∃ m ∈ ms, m.found ≠ []) :
    ∃ mtx, matchMatrix grp tok ms = .ok mtx ∧ Valid mtx ∧ mtx.rows.Pairwise (· ≤ ·) ∧ mtx.cols.Pairwise (· ≤ ·) ∧
      (∀ t, t ∈ mtx.rows ↔ ∃ m ∈ ms, ∃ mt ∈ m.found, targetStr grp tok m mt = .ok t) ∧
      (∀ f, f ∈ mtx.cols ↔ ∃ m ∈ ms, ∃ mt ∈ m.found, featureStr grp m mt = .ok f) ∧
      ∀ t f, entry mtx t f = ((ms.map (fun m => m.found.countP (hasStrings grp tok m t f))).sum : Nat) := by
  obtain ⟨ps, hps⟩ := hok
  have hpair : ∀ m mt t f, pairOf grp tok m mt = .ok (t, f) ↔ targetStr grp tok m mt = .ok t ∧ featureStr grp m mt = .ok f := by
    intro m mt t f
    unfold pairOf
    cases h1 : targetStr grp tok m mt with
    | error e => simp [bind, Except.bind]
    | ok t' =>
      cases h2 : featureStr grp m mt with
      | error e => simp [bind, Except.bind]
      | ok f' => simp [bind, Except.bind, Prod.ext_iff]
  have hmem : ∀ t f, (t, f) ∈ ps ↔ ∃ m ∈ ms, ∃ mt ∈ m.found, pairOf grp tok m mt = .ok (t, f) := by
    intro t f
    have h := hps
    unfold matchPairs at h
    cases hl : ms.mapM (macroPairs grp tok) with
    | error e => rw [hl] at h; cases h
    | ok l =>
      rw [hl] at h
      cases h
      rw [List.mem_flatten]
      constructor
      · rintro ⟨q, hq, hm⟩
        obtain ⟨m, hm1, hm2⟩ := (mem_mapM _ _ _ hl q).1 hq
        obtain ⟨mt, h1, h2⟩ := (mem_mapM _ _ _ hm2 (t, f)).1 hm
        exact ⟨m, hm1, mt, h1, h2⟩
      · rintro ⟨m, hm, mt, h1, h2⟩
        have : ∃ q, macroPairs grp tok m = .ok q ∧ q ∈ l := by
          clear * - hl hm
          induction ms generalizing l with
          | nil => cases hm
          | cons x ms ih =>
            rw [List.mapM_cons] at hl
            cases hx : macroPairs grp tok x with
            | error e => rw [hx] at hl; cases hl
            | ok q =>
              rw [hx] at hl
              cases hms : ms.mapM (macroPairs grp tok) with
              | error e => rw [hms] at hl; cases hl
              | ok l' =>
                rw [hms] at hl
                cases hl
                rcases List.mem_cons.1 hm with rfl | hm
                · exact ⟨q, hx, by simp⟩
                · obtain ⟨q', h1, h2⟩ := ih l' hms hm
                  exact ⟨q', h1, by simp [h2]⟩
        obtain ⟨q, hq, hql⟩ := this
        exact ⟨q, hql, (mem_mapM _ _ _ hq (t, f)).2 ⟨mt, h1, h2⟩⟩
  have hall : ∀ m ∈ ms, ∀ mt ∈ m.found, ∃ t f, pairOf grp tok m mt = .ok (t, f) := by
    intro m hm mt hmt
    have h := hps
    unfold matchPairs at h
    cases hl : ms.mapM (macroPairs grp tok) with
    | error e => rw [hl] at h; cases h
    | ok l =>
      obtain ⟨q, hq⟩ := mapM_mem_ok hl hm
      obtain ⟨y, hy⟩ := mapM_mem_ok hq hmt
      exact ⟨y.1, y.2, hy⟩
  have hne' : ps ≠ [] := by
    obtain ⟨m, hm, hf⟩ := hne
    obtain ⟨mt, l, hl⟩ := List.exists_cons_of_ne_nil hf
    obtain ⟨t, f, h⟩ := hall m hm mt (by rw [hl]; simp)
    exact List.ne_nil_of_mem ((hmem t f).2 ⟨m, hm, mt, by rw [hl]; simp, h⟩)
  obtain ⟨mtx, h1, h2, _, ⟨h3, h4⟩, ⟨h5, h6⟩, h7⟩ := C67_counts ps hne'
  refine ⟨mtx, ?_, h2, h3, h5, ?_, ?_, ?_⟩
  · unfold matchMatrix
    rw [hps]
    simp only [bind, Except.bind, h1]
  · intro t
    rw [h4]
    constructor
    · rintro ⟨f, h⟩
      obtain ⟨m, hm, mt, hmt, h⟩ := (hmem t f).1 h
      exact ⟨m, hm, mt, hmt, ((hpair _ _ _ _).1 h).1⟩
    · rintro ⟨m, hm, mt, hmt, h⟩
      obtain ⟨t', f, h'⟩ := hall m hm mt hmt
      have ht := ((hpair _ _ _ _).1 h').1
      rw [h] at ht
      cases ht
      exact ⟨f, (hmem _ _).2 ⟨m, hm, mt, hmt, h'⟩⟩
  · intro f
    rw [h6]
    constructor
    · rintro ⟨t, h⟩
      obtain ⟨m, hm, mt, hmt, h⟩ := (hmem t f).1 h
      exact ⟨m, hm, mt, hmt, ((hpair _ _ _ _).1 h).2⟩
    · rintro ⟨m, hm, mt, hmt, h⟩
      obtain ⟨t, f', h'⟩ := hall m hm mt hmt
      have ht := ((hpair _ _ _ _).1 h').2
      rw [h] at ht
      cases ht
      exact ⟨t, (hmem _ _).2 ⟨m, hm, mt, hmt, h'⟩⟩
  · intro t f
    rw [h7, matchPairs_count hps]

/-- **C67**, what is left: without any match, `ValueError`. -/
theorem C67_false_none (grp : String → String → Nat → Option String) (tok : Bool) (ms : List Macro) (h : ∀ m ∈ ms, m.found = []) :
    matchMatrix grp tok ms = .error .valueError := by
  have : matchPairs grp tok ms = .ok [] := by
    unfold matchPairs
    have h2 : ms.mapM (macroPairs grp tok) = .ok (ms.map (fun _ => [])) := by
      induction ms with
      | nil => rfl
      | cons m ms ih =>
        have hm : macroPairs grp tok m = .ok [] := by
          unfold macroPairs
          rw [h m (by simp)]
          rfl
        rw [List.mapM_cons, hm, ih (fun m hm => h m (by simp [hm]))]
        rfl
    rw [h2]
    simp [bind, Except.bind]
  unfold matchMatrix
  rw [this]
  simp only [bind, Except.bind, C67_none]
  rfl

/-- What has been found so far and the filter play no part in the strings of a match. -/
theorem preorder_found (grp : String → String → Nat → Option String) (m : Macro) (fl : Option (List String)) (l : List Match) (mt : Match) (n cur : Nat) :
    preorder grp { m with filter := fl, found := l } mt n cur = preorder grp m mt n cur := by
  induction n generalizing cur with
  | zero => rfl
  | succ n ih =>
    have h1 : ∀ w, shownOne grp { m with filter := fl, found := l } mt cur w = shownOne grp m mt cur w := fun _ => rfl
    have h2 : succRepr grp { m with filter := fl, found := l } mt cur = succRepr grp m mt cur := rfl
    have h3 : addRest { m with filter := fl, found := l } = addRest m := rfl
    simp only [preorder, ih, h1, h2, h3]

theorem featureStr_found (grp : String → String → Nat → Option String) (m : Macro) (fl : Option (List String)) (l : List Match) (mt : Match) :
    featureStr grp { m with filter := fl, found := l } mt = featureStr grp m mt := by
  have h2 : nodeRepr grp { m with filter := fl, found := l } mt = nodeRepr grp m mt := rfl
  simp only [featureStr, featureFull, featureSimple, preorder_found, h2]

theorem pairOf_found (grp : String → String → Nat → Option String) (tok : Bool) (m : Macro) (fl : Option (List String)) (l : List Match) (mt : Match) :
    pairOf grp tok { m with filter := fl, found := l } mt = pairOf grp tok m mt := by
  have h1 : targetStr grp tok { m with filter := fl, found := l } mt = targetStr grp tok m mt := rfl
  unfold pairOf
  rw [h1, featureStr_found]

theorem hasStrings_found (grp : String → String → Nat → Option String) (tok : Bool) (m : Macro) (l : List Match) (t f : String) :
    hasStrings grp tok { m with found := l } t f = hasStrings grp tok m t f := by
  funext mt
  have h1 : targetStr grp tok { m with found := l } mt = targetStr grp tok m mt := rfl
  unfold hasStrings
  rw [h1, featureStr_found grp m m.filter l mt]

/-! ## C70: from corpus files to the matrix -/

section
variable {rx : String → String → Bool} {istree : Graph → Bool} {f : LineFormat} {ea : List String} {tok : Bool}

/-- The matches of one file for the macro with number `i`, from `C39_partial`. -/
theorem depFound_spec (S : DepSettings f ea) (c : CorpusFile) {sents : List (List Word)} (hf : readSentence f c.lines = sents.map linesOf)
    (hs : ∀ ws ∈ sents, GoodSentence f ws) (targets : List String) (macros : List Macro) (hG : ∀ m ∈ macros, GoodMacro f ea m)
    (h0 : ∀ m ∈ macros, m.found = []) {i : Nat} {m : Macro} (hm : macros[i]? = some m) :
    ∃ parts : List (List Match), List.Forall₂ (SentenceAdds rx istree f ea (fileId tok c) { m with filter := some targets }) sents parts ∧
      depFound rx istree f tok targets macros c i = parts.flatten := by
  obtain ⟨ms', h1, h2⟩ := C39_partial (rx := rx) (istree := istree) (fid := fileId tok c) S c.lines hf hs targets macros hG
  obtain ⟨hi, he⟩ := List.getElem?_eq_some_iff.1 hm
  have hi' : i < ms'.length := by rw [← h2.length_eq]; exact hi
  obtain ⟨parts, h3, h4⟩ := (List.forall₂_iff_get.1 h2).2 i hi hi'
  refine ⟨parts, ?_, ?_⟩
  · rw [← he]; exact h3
  · unfold depFound
    rw [h1]
    simp only
    rw [List.getElem?_eq_getElem hi']
    have h4' : ms'[i] = { macros[i] with filter := some targets, found := (macros[i]).found ++ parts.flatten } := h4
    simp only [h4']
    rw [h0 _ (List.getElem_mem hi)]
    rfl

/-- The formats of the macro ask only for attributes that the pattern has (or, for tokens, for file and line). -/
structure Readable (tok : Bool) (m : Macro) : Prop where
  target : ∀ pat, m.graph.nodes.get? m.targetIdx = some pat → ∀ a ∈ m.targetAttrs.keys, isTokenAttr a = false → a ∈ pat.keys
  token : tok = true → "LID" ∉ m.targetAttrs.keys
  featNodes : ∀ x pat, m.graph.nodes.get? x = some pat → ∀ a ∈ m.featNodeAttrs.keys, a ∈ Dict.keys pat
  featEdges : ∀ x pat, m.graph.edges.get? x = some pat → ∀ a ∈ m.featEdgeAttrs.keys, a ∈ Dict.keys pat
  feature : ∀ i, m.featureIdx = some i → i ∈ m.graph.nodes.keys

/-- A recorded match has all attributes that the formats ask for. -/
theorem complete_of_records {g : Graph} {fid : Option String} {m : Macro} {r : Nat} (T : RootedTree m.graph r) (G : GoodMacro f ea m) (R : Readable tok m) {φ : Nat → Option Nat} {rec : Match}
    (F : Fits rx g m.graph φ) (hrec : Records g m.graph fid φ rec) : Complete m rec where
  nodes := by
    intro v hv
    obtain ⟨y, hy⟩ := Option.isSome_iff_exists.1 ((F.dom v).2 hv)
    obtain ⟨pat, hp⟩ := Option.isSome_iff_exists.1 ((Dict.get?_isSome_iff m.graph.nodes v).2 hv)
    obtain ⟨item, hi, hsat⟩ := F.node v y pat hy hp
    obtain ⟨b, hb, hbk⟩ := hrec.nodes v y item hy hi
    refine ⟨pat, b, hp, hb, fun a ha => ?_⟩
    have hk := R.featNodes v pat hp a ha
    obtain ⟨re, hre⟩ := Option.isSome_iff_exists.1 ((Dict.get?_isSome_iff pat a).2 hk)
    obtain ⟨u, hu, _⟩ := hsat a re (Dict.mem_of_get? hre)
    refine ⟨hk, ?_, ?_⟩
    · rw [← Dict.get?_isSome_iff, hbk]
      cases fid with
      | none => simp only [hu]; rfl
      | some f => simp only; split_ifs <;> simp [hu]
    · rintro rfl
      exact absurd ((G.nodes v pat hp).2 _ hk).1 (by decide)
  edges := by
    intro e he
    obtain ⟨x, x'⟩ := e
    obtain ⟨hx, hx'⟩ := T.ends x x' he
    obtain ⟨y, hy⟩ := Option.isSome_iff_exists.1 ((F.dom x).2 hx)
    obtain ⟨y', hy'⟩ := Option.isSome_iff_exists.1 ((F.dom x').2 hx')
    obtain ⟨pat, hp⟩ := Option.isSome_iff_exists.1 ((Dict.get?_isSome_iff m.graph.edges (x, x')).2 he)
    obtain ⟨item, hi, hsat⟩ := F.edge x x' y y' pat hp hy hy'
    refine ⟨pat, item, hp, by rw [hrec.edges x x' y y' he hy hy', hi], fun a ha => ?_⟩
    have hk := R.featEdges _ pat hp a ha
    obtain ⟨re, hre⟩ := Option.isSome_iff_exists.1 ((Dict.get?_isSome_iff pat a).2 hk)
    obtain ⟨u, hu, _⟩ := hsat a re (Dict.mem_of_get? hre)
    exact ⟨hk, by rw [← Dict.get?_isSome_iff, hu]; rfl⟩

/-- The feature string of a complete match can be computed. -/
theorem featureStr_ok (grp : String → String → Nat → Option String) {m : Macro} {r : Nat} (T : RootedTree m.graph r) (h1 : 1 ∈ m.graph.nodes.keys) (R : Readable tok m) {mt : Match} (C : Complete m mt) :
    ∃ s, featureStr grp m mt = .ok s := by
  unfold featureStr
  split
  · obtain ⟨l, str, h, _⟩ := featureFull_shows (grp := grp) T h1 C
    exact ⟨_, h⟩
  · rename_i i hi
    exact ⟨_, nodeRepr_eq C (R.feature i hi)⟩

/-- The target string of a recorded match can be computed. -/
theorem targetStr_ok (grp : String → String → Nat → Option String) {ws : List Word} {g : Graph} (P : Represents f ea ws g) {c : CorpusFile} {m : Macro} (G : GoodMacro f ea m)
    (R : Readable tok m) {φ : Nat → Option Nat} {rec : Match} (F : Fits rx g m.graph φ) (hrec : Records g m.graph (fileId tok c) φ rec) :
    ∃ s, targetStr grp tok m rec = .ok s := by
  obtain ⟨y, hy⟩ := Option.isSome_iff_exists.1 ((F.dom m.targetIdx).2 G.target)
  obtain ⟨pat, hp⟩ := Option.isSome_iff_exists.1 ((Dict.get?_isSome_iff m.graph.nodes m.targetIdx).2 G.target)
  obtain ⟨item, hi, hsat⟩ := F.node m.targetIdx y pat hy hp
  obtain ⟨b, hb, hbk⟩ := hrec.nodes m.targetIdx y item hy hi
  have hlid : (item.get? "lid").isSome := by
    by_cases hw : ∃ w ∈ ws, y = w.id
    · obtain ⟨w, hw, rfl⟩ := hw
      obtain ⟨a, ha, hc⟩ := P.node w hw
      rw [hi] at ha
      cases ha
      rw [hc, if_pos rfl]
      rfl
    · exfalso
      have := P.bare y item hi (fun w h e => hw ⟨w, h, e⟩)
      subst this
      obtain ⟨hne, _⟩ := G.nodes _ pat hp
      obtain ⟨e, l, rfl⟩ := List.exists_cons_of_ne_nil hne
      obtain ⟨v, hv, _⟩ := hsat e.1 e.2 (by simp)
      exact (nomatch hv)
  unfold targetStr
  rw [getD_ok hp, getD_ok hb]
  simp only [bind, Except.bind]
  have : ∃ l, m.targetAttrs.mapM (targetAttr grp tok pat b) = .ok l := by
    refine ⟨_, mapM_ok _ (fun e => (targetAttr grp tok pat b e).toOption.getD none) _ ?_⟩
    intro e he
    have hkey : e.1 ∈ m.targetAttrs.keys := by unfold Dict.keys; exact List.mem_map_of_mem he
    have : ∃ v, targetAttr grp tok pat b e = .ok v := by
      unfold targetAttr
      cases ht : isTokenAttr e.1 with
      | true =>
        cases htok : tok with
        | false => exact ⟨none, rfl⟩
        | true =>
          have hb' : (b.get? e.1).isSome := by
            rw [hbk]
            subst htok
            simp only [fileId, if_true]
            have hL := R.token rfl
            have : e.1 = "FID" ∨ e.1 = "fid" ∨ e.1 = "lid" := by
              unfold isTokenAttr at ht
              simp only [Bool.or_eq_true, beq_iff_eq] at ht
              rcases ht with ((h | h) | h) | h
              · exact .inl h
              · exact absurd (h ▸ hkey) hL
              · exact .inr (.inl h)
              · exact .inr (.inr h)
            rcases this with h | h | h
            · rw [h]; rfl
            · rw [h]; rfl
            · rw [h]; simpa using hlid
          obtain ⟨v, hv⟩ := Option.isSome_iff_exists.1 hb'
          refine ⟨some v, ?_⟩
          rw [getD_ok hv]
          rfl
      | false =>
        have hk := R.target pat hp e.1 hkey ht
        obtain ⟨re, hre⟩ := Option.isSome_iff_exists.1 ((Dict.get?_isSome_iff pat e.1).2 hk)
        obtain ⟨v, hv, _⟩ := hsat e.1 re (Dict.mem_of_get? hre)
        have hb' : (b.get? e.1).isSome := by
          rw [hbk]
          cases fileId tok c with
          | none => simp only [hv]; rfl
          | some f => simp only; split_ifs <;> simp [hv]
        obtain ⟨v', hv'⟩ := Option.isSome_iff_exists.1 hb'
        refine ⟨some (groupStr grp re v' e.2), ?_⟩
        unfold attrRepr
        rw [getD_ok hre, getD_ok hv']
        rfl
    obtain ⟨v, hv⟩ := this
    rw [hv]
    rfl
  obtain ⟨l, hl⟩ := this
  rw [hl]
  exact ⟨_, rfl⟩

/-- What a sentence adds to a macro has target and feature strings. -/
theorem pairOf_ok (grp : String → String → Nat → Option String) {ws : List Word} {c : CorpusFile} {m : Macro} {recs : List Match} (G : GoodMacro f ea m) (R : Readable tok m)
    (h : SentenceAdds rx istree f ea (fileId tok c) m ws recs) : ∀ mt ∈ recs, ∃ p, pairOf grp tok m mt = .ok p := by
  intro mt hmt
  obtain ⟨g, _, P, h1, h2⟩ := h
  obtain ⟨r, T⟩ := G.tree
  cases ht : istree g with
  | false => rw [h1 ht] at hmt; cases hmt
  | true =>
    obtain ⟨maps, _, h3, h4⟩ := h2 ht
    have : ∃ d ∈ maps.filter (keeps g m), Records g m.graph (fileId tok c) (Dict.get? d) mt := by
      generalize maps.filter (keeps g m) = ds at h4 ⊢
      clear * - h4 hmt
      induction h4 with
      | nil => cases hmt
      | cons h _ ih =>
        rcases List.mem_cons.1 hmt with rfl | h'
        · exact ⟨_, by simp, h⟩
        · obtain ⟨d, hd, hh⟩ := ih h'
          exact ⟨d, by simp [hd], hh⟩
    obtain ⟨d, hd, hr⟩ := this
    have F : Fits rx g m.graph (Dict.get? d) := (h3 _).1 (List.mem_map_of_mem (List.mem_filter.1 hd).1)
    obtain ⟨t, h5⟩ := targetStr_ok grp P G R F hr
    obtain ⟨s, h6⟩ := featureStr_ok grp T G.one R (complete_of_records T G R F hr)
    refine ⟨(t, s), ?_⟩
    unfold pairOf
    rw [h5, h6]
    rfl

theorem mapM_all_ok {γ δ : Type} (f : γ → Except Err δ) (l : List γ) (h : ∀ x ∈ l, ∃ y, f x = .ok y) : ∃ ys, l.mapM f = .ok ys := by
  induction l with
  | nil => exact ⟨[], rfl⟩
  | cons a l ih =>
    obtain ⟨y, hy⟩ := h a (by simp)
    obtain ⟨ys, hys⟩ := ih (fun x hx => h x (by simp [hx]))
    refine ⟨y :: ys, ?_⟩
    rw [List.mapM_cons, hy]
    simp only [bind, Except.bind, hys, pure, Except.pure]

/-- **C70**: on a handler with fresh macros, `build_dependency` gives, for every worker count and every schedule, the matrix
that counts the matches of all sentences of all files: its entry for `t` and `f` is the number of recorded matches with target `t`
and feature `f`, and for every macro and file the recorded matches are, sentence by sentence, those of `SentenceAdds`. -/
theorem C70_partial (grp : String → String → Nat → Option String) (S : DepSettings f ea) (files : List CorpusFile)
    (sents : CorpusFile → List (List Word)) (hf : ∀ c ∈ files, readSentence f c.lines = (sents c).map linesOf)
    (hs : ∀ c ∈ files, ∀ ws ∈ sents c, GoodSentence f ws) (targets : List String) (macros : List Macro)
    (hG : ∀ m ∈ macros, GoodMacro f ea m) (h0 : ∀ m ∈ macros, m.found = []) (W : Nat) (acc : Nat → List Match)
    (hcall : DepCall (depFound rx istree f tok targets macros) W files (fun _ => []) acc)
    (hR : ∀ m ∈ macros, Readable tok m) (hne : ∃ m ∈ withFound macros acc, m.found ≠ []) :
    ∃ (recs : Nat → CorpusFile → List (List Match)) (mtx : Mtx String Int),
      (∀ i m, macros[i]? = some m → ∀ c ∈ files,
        List.Forall₂ (SentenceAdds rx istree f ea (fileId tok c) { m with filter := some targets }) (sents c) (recs i c)) ∧
      matchMatrix grp tok (withFound macros acc) = .ok mtx ∧ Valid mtx ∧
      ∀ t ft, entry mtx t ft = ((macros.zipIdx.map (fun e => (files.map (fun c =>
        (recs e.2 c).flatten.countP (hasStrings grp tok e.1 t ft))).sum)).sum : Nat) := by
  classical
  have hrec : ∀ (i : Nat) (c : CorpusFile), ∃ parts : List (List Match), (c ∈ files → ∀ m, macros[i]? = some m →
      List.Forall₂ (SentenceAdds rx istree f ea (fileId tok c) { m with filter := some targets }) (sents c) parts ∧
      depFound rx istree f tok targets macros c i = parts.flatten) := by
    intro i c
    by_cases hc : c ∈ files
    · cases hm : macros[i]? with
      | none => exact ⟨[], fun _ m h => (nomatch h)⟩
      | some m =>
        obtain ⟨parts, h1, h2⟩ := depFound_spec (rx := rx) (istree := istree) (tok := tok) S c (hf c hc) (hs c hc) targets macros hG h0 hm
        exact ⟨parts, fun _ m' h => by cases h; exact ⟨h1, h2⟩⟩
    · exact ⟨[], fun h => absurd h hc⟩
  choose recs hrecs using hrec
  have hmz : ∀ e ∈ macros.zipIdx, macros[e.2]? = some e.1 := by
    intro e he
    obtain ⟨_, h, he'⟩ := List.mem_zipIdx he
    rw [List.getElem?_eq_getElem (by omega)]
    simp only [Nat.sub_zero] at he'
    rw [he']
  have hok : ∃ ps, matchPairs grp tok (withFound macros acc) = .ok ps := by
    have hall : ∀ m' ∈ withFound macros acc, ∃ l, macroPairs grp tok m' = .ok l := by
      intro m' hm'
      obtain ⟨e, he, rfl⟩ := List.mem_map.1 hm'
      have hm := hmz e he
      have hmem : e.1 ∈ macros := List.mem_of_getElem? hm
      apply mapM_all_ok
      intro mt hmt
      have hp := (C06_first_call (κ := String) _ W files acc hcall).1 e.2
      obtain ⟨c, hc, hmt⟩ := List.mem_flatMap.1 (hp.mem_iff.1 hmt)
      obtain ⟨h1, h2⟩ := hrecs e.2 c hc e.1 hm
      rw [h2] at hmt
      obtain ⟨l, hl, hmt⟩ := List.mem_flatten.1 hmt
      obtain ⟨ws, hadd⟩ : ∃ ws, SentenceAdds rx istree f ea (fileId tok c) { e.1 with filter := some targets } ws l := by
        generalize sents c = ss at h1
        generalize recs e.2 c = parts at h1 hl
        clear * - h1 hl
        induction h1 with
        | nil => cases hl
        | cons h _ ih =>
          rcases List.mem_cons.1 hl with rfl | h'
          · exact ⟨_, h⟩
          · exact ih h'
      have G := hG e.1 hmem
      have R := hR e.1 hmem
      obtain ⟨p, hp⟩ := pairOf_ok grp (m := { e.1 with filter := some targets }) ⟨G.tree, G.one, G.depth, G.target, G.targetAttrs, G.nodes, G.edges⟩
        ⟨R.target, R.token, R.featNodes, R.featEdges, R.feature⟩ hadd mt hmt
      refine ⟨p, ?_⟩
      have e1 := pairOf_found grp tok e.1 e.1.filter (acc e.2) mt
      have e2 := pairOf_found grp tok e.1 (some targets) e.1.found mt
      exact e1.trans (e2.symm.trans hp)
    obtain ⟨l, hl⟩ := mapM_all_ok _ _ hall
    refine ⟨l.flatten, ?_⟩
    unfold matchPairs
    rw [hl]
    rfl
  obtain ⟨mtx, h1, h2, _, _, _, _, h7⟩ := C67_partial grp tok _ hok hne
  refine ⟨recs, mtx, fun i m hm c hc => (hrecs i c hc m hm).1, h1, h2, fun t ft => ?_⟩
  rw [h7]
  congr 2
  unfold withFound
  rw [List.map_map]
  apply List.map_congr_left
  intro e he
  have hm := hmz e he
  have hp := (C06_first_call (κ := String) _ W files acc hcall).1 e.2
  show (acc e.2).countP (hasStrings grp tok { e.1 with found := acc e.2 } t ft) = _
  rw [hasStrings_found, hp.countP_eq, List.countP_flatMap]
  congr 1
  apply List.map_congr_left
  intro c hc
  show List.countP _ (depFound rx istree f tok targets macros c e.2) = _
  rw [(hrecs e.2 c hc e.1 hm).2]

/-- **C70**, **C38**: on a handler without targets (the default) `build_dependency` never gives a matrix: whatever the corpus
and the macros, it raises `ValueError` after processing all files. -/
theorem C70_false_no_targets (grp : String → String → Nat → Option String) (S : DepSettings f ea) (files : List CorpusFile)
    (sents : CorpusFile → List (List Word)) (hf : ∀ c ∈ files, readSentence f c.lines = (sents c).map linesOf)
    (hs : ∀ c ∈ files, ∀ ws ∈ sents c, GoodSentence f ws) (macros : List Macro)
    (hG : ∀ m ∈ macros, GoodMacro f ea m) (h0 : ∀ m ∈ macros, m.found = []) (W : Nat) (acc : Nat → List Match)
    (hcall : DepCall (depFound rx istree f tok [] macros) W files (fun _ => []) acc) :
    matchMatrix grp tok (withFound macros acc) = .error .valueError := by
  apply C67_false_none
  intro m hm
  obtain ⟨e, he, rfl⟩ := List.mem_map.1 hm
  show acc e.2 = []
  have hm : macros[e.2]? = some e.1 := by
    obtain ⟨_, h, he'⟩ := List.mem_zipIdx he
    rw [List.getElem?_eq_getElem (by omega)]
    simp only [Nat.sub_zero] at he'
    rw [he']
  have hp := (C06_first_call (κ := String) _ W files acc hcall).1 e.2
  have hz : files.flatMap (fun c => depFound rx istree f tok [] macros c e.2) = [] := by
    rw [List.flatMap_eq_nil_iff]
    intro c hc
    obtain ⟨parts, h1, h2⟩ := depFound_spec (rx := rx) (istree := istree) (tok := tok) S c (hf c hc) (hs c hc) [] macros hG h0 hm
    rw [h2, List.flatten_eq_nil_iff]
    intro l hl
    obtain ⟨ws, _, g, _, _, hfalse, htrue⟩ : ∃ ws, ws ∈ sents c ∧ SentenceAdds rx istree f ea (fileId tok c) { e.1 with filter := some [] } ws l := by
      generalize sents c = ss at h1
      clear * - h1 hl
      induction h1 with
      | nil => cases hl
      | cons h _ ih =>
        rcases List.mem_cons.1 hl with rfl | h'
        · exact ⟨_, by simp, h⟩
        · obtain ⟨m, hm, hh⟩ := ih h'
          exact ⟨m, by simp [hm], hh⟩
    cases ht : istree g with
    | false => exact hfalse ht
    | true =>
      obtain ⟨maps, _, _, h3⟩ := htrue ht
      have : maps.filter (keeps g { e.1 with filter := some [] }) = [] := by
        rw [List.filter_eq_nil_iff]
        intro d _
        simp [keeps]
      rw [this] at h3
      cases h3
      rfl
  rw [hz] at hp
  exact hp.eq_nil
end

/-! ### Examples -/

/-- A format with the columns id, lemma, tag, head, relation; the sample knows three lines. -/
def sampleFmt : LineFormat :=
  { groups := fun l => if l = "1 boy N 2 nsubj" then some [l, "1", "boy", "N", "2", "nsubj"] else if l = "2 eat V 0 root" then some [l, "2", "eat", "V", "0", "root"] else if l = "3 apple N 2 obj" then some [l, "3", "apple", "N", "2", "obj"] else none
    isSep := fun l => l == "</s>"
    toInt := fun s => if s = "0" then some 0 else if s = "1" then some 1 else if s = "2" then some 2 else if s = "3" then some 3 else none
    columns := ["id", "LEMMA", "POS", "head", "DEPREL"], nodeAttr := ["LEMMA", "POS"], edgeAttr := some ["DEPREL"], currID := "id", headID := "head" }

/-- Column contents of a sample word. -/
def cols5 (a b c d e : String) (col : String) : String :=
  if col = "id" then a else if col = "LEMMA" then b else if col = "POS" then c else if col = "head" then d else e

def sampleWords : List Word :=
  [⟨2, "1 boy N 2 nsubj", 1, 2, cols5 "1" "boy" "N" "2" "nsubj"⟩, ⟨3, "2 eat V 0 root", 2, 0, cols5 "2" "eat" "V" "0" "root"⟩,
   ⟨4, "3 apple N 2 obj", 3, 2, cols5 "3" "apple" "N" "2" "obj"⟩]

def sampleFile : CorpusFile := ⟨"a", ["<s>", "1 boy N 2 nsubj", "2 eat V 0 root", "3 apple N 2 obj", "</s>"]⟩

theorem sample_settings : DepSettings sampleFmt ["DEPREL"] where
  distinct := by decide
  edgeAttr := rfl
  currID := by decide
  headID := by decide
  edgeCol := ⟨"DEPREL", by decide⟩
  noId := by decide

theorem sample_read : readSentence sampleFmt sampleFile.lines = [sampleWords].map linesOf := by decide

theorem cols_of_all {cs g : List String} {val : String → String} (h : (g.tail.zip cs).all (fun e => e.1 == val e.2) = true)
    (hl : g.length = cs.length + 1) : ∀ (i : Nat) (c : String), cs[i]? = some c → g[i + 1]? = some (val c) := by
  intro i c hc
  obtain ⟨hi, hc'⟩ := List.getElem?_eq_some_iff.1 hc
  have hg : i + 1 < g.length := by omega
  rw [List.getElem?_eq_getElem hg]
  have hm : (g[i + 1], cs[i]) ∈ g.tail.zip cs := by
    rw [List.mem_iff_getElem]
    refine ⟨i, by simp; omega, ?_⟩
    simp
  have := List.all_eq_true.1 h _ hm
  simp only [beq_iff_eq] at this
  rw [this, hc']

theorem sample_sentence : GoodSentence sampleFmt sampleWords where
  nonempty := by decide
  lines := by
    have key : ∀ w ∈ sampleWords, (∃ g, sampleFmt.groups w.line = some g ∧ (g.tail.zip sampleFmt.columns).all (fun e => e.1 == w.val e.2) = true ∧
        g.length = sampleFmt.columns.length + 1) ∧ sampleFmt.toInt (w.val sampleFmt.currID) = some w.id ∧
        sampleFmt.toInt (w.val sampleFmt.headID) = some w.head := by
      intro w hw
      simp only [sampleWords, List.mem_cons, List.not_mem_nil, or_false] at hw
      rcases hw with rfl | rfl | rfl
      · exact ⟨⟨_, rfl, by decide, by decide⟩, by decide, by decide⟩
      · exact ⟨⟨_, rfl, by decide, by decide⟩, by decide, by decide⟩
      · exact ⟨⟨_, rfl, by decide, by decide⟩, by decide, by decide⟩
    intro w hw
    obtain ⟨⟨g, h1, h2, h3⟩, h4, h5⟩ := key w hw
    exact ⟨⟨g, h1, cols_of_all h2 h3⟩, h4, h5⟩
  ids := by decide

theorem sample_macro (filter : Option (List String)) : GoodMacro sampleFmt ["DEPREL"] (verbMacro filter) where
  tree := ⟨1, verbPat_rooted⟩
  one := by show 1 ∈ verbPat.nodes.keys; decide
  depth := by show getDepth verbPat = .ok 2; decide
  target := by show 2 ∈ verbPat.nodes.keys; decide
  targetAttrs := by
    have : ∀ a ∈ ["LEMMA", "POS"], isTokenAttr a = false → a ∈ sampleFmt.columns ∧ a ∈ sampleFmt.nodeAttr := by decide
    exact this
  nodes := by
    have : ∀ e ∈ verbPat.nodes, e.2 ≠ [] ∧ ∀ a ∈ e.2.map Prod.fst, isTokenAttr a = false ∧ a ∈ sampleFmt.columns ∧ a ∈ sampleFmt.nodeAttr := by decide
    intro x pat h
    exact this _ (Dict.mem_of_get? h)
  edges := by
    have : ∀ e ∈ verbPat.edges, e.2 ≠ [] ∧ ∀ a ∈ e.2.map Prod.fst, a ∈ sampleFmt.columns ∧ a ∈ ["DEPREL"] ∧ a ∉ sampleFmt.nodeAttr := by decide
    intro x pat h
    exact this _ (Dict.mem_of_get? h)

theorem sample_readable (filter : Option (List String)) : Readable false (verbMacro filter) where
  target := by
    have : ∀ e ∈ verbPat.nodes, ∀ a ∈ ["LEMMA", "POS"], isTokenAttr a = false → a ∈ e.2.map Prod.fst := by decide
    intro pat h
    exact this _ (Dict.mem_of_get? h)
  token := by intro h; cases h
  featNodes := by
    have : ∀ e ∈ verbPat.nodes, ∀ a ∈ ["LEMMA"], a ∈ e.2.map Prod.fst := by decide
    intro x pat h
    exact this _ (Dict.mem_of_get? h)
  featEdges := by
    have : ∀ e ∈ verbPat.edges, ∀ a ∈ ["DEPREL"], a ∈ e.2.map Prod.fst := by decide
    intro x pat h
    exact this _ (Dict.mem_of_get? h)
  feature := by
    intro i h
    cases h

/-- C39: the sample file is processed, and the only sentence adds one match (the filter has one of the two nouns). -/
example : ∃ m', depJob rx0 (fun _ => true) sampleFmt none ["apple/N"] [verbMacro none] sampleFile.lines = .ok [m'] ∧ m'.found.length = 1 := by
  obtain ⟨ms, h1, h2⟩ := C39_partial (rx := rx0) (istree := fun _ => true) (fid := none) sample_settings sampleFile.lines sample_read (by
    intro ws h; rcases List.mem_singleton.1 h with rfl; exact sample_sentence) ["apple/N"] [verbMacro none] (by
    intro m h; rcases List.mem_singleton.1 h with rfl; exact sample_macro none)
  cases h2 with
  | cons h t =>
    cases t
    refine ⟨_, h1, ?_⟩
    have h5 : (match depJob rx0 (fun _ => true) sampleFmt none ["apple/N"] [verbMacro none] sampleFile.lines with
      | .ok [m] => m.found.length
      | _ => 0) = 1 := by decide
    rw [h1] at h5
    exact h5

/-- C69: the graph of the sample sentence is a tree with root 0. -/
example : ∃ g, sentenceGraph sampleFmt (linesOf sampleWords) = .ok g ∧ RootedTree g 0 := by
  obtain ⟨g, h1, P⟩ := C69_graph sample_settings sampleWords sample_sentence.nonempty sample_sentence.lines sample_sentence.ids
  refine ⟨g, h1, C69_tree P sample_sentence.nonempty sample_sentence.ids (by decide) ?_⟩
  have e1 : Relation.ReflTransGen (Heads sampleWords) 0 2 := .single ⟨_, List.mem_cons_of_mem _ (List.mem_cons_self ..), rfl, rfl⟩
  intro w hw
  simp only [sampleWords, List.mem_cons, List.not_mem_nil, or_false] at hw
  rcases hw with rfl | rfl | rfl
  · exact e1.tail ⟨_, List.mem_cons_self .., rfl, rfl⟩
  · exact e1
  · exact e1.tail ⟨_, List.mem_cons_of_mem _ (List.mem_cons_of_mem _ (List.mem_cons_self ..)), rfl, rfl⟩

/-- C39 fails for two separators in a row. -/
example : ∃ e, depJob rx0 (fun _ => true) sampleFmt none [] [verbMacro none] ["1 boy N 2 nsubj", "</s>", "</s>"] = .error e :=
  (C39_false_empty rx0 (fun _ => true) sampleFmt none [] [verbMacro none] ["1 boy N 2 nsubj", "</s>", "</s>"] (k := 1) (by decide) (by decide)).2

/-- C67: three pairs, two of them equal. -/
example : ∃ m, pairMatrix [("b", "x"), ("a", "y"), ("b", "x")] = .ok m ∧ m.rows = ["a", "b"] ∧ entry m "b" "x" = 2 := by
  obtain ⟨m, h1, _, _, _, _, h⟩ := C67_counts [("b", "x"), ("a", "y"), ("b", "x")] (by decide)
  refine ⟨m, h1, ?_, ?_⟩
  · have h2 : (pairMatrix [("b", "x"), ("a", "y"), ("b", "x")]).toOption.map (fun m : Mtx String Int => m.rows) = some ["a", "b"] := by decide
    rw [h1] at h2
    simpa [Except.toOption] using h2
  · rw [h]; decide

/-- One worker processes the sample file. -/
theorem sample_call (targets : List String) : DepCall (depFound rx0 (fun _ => true) sampleFmt false targets [verbMacro none]) 1 [sampleFile]
    (fun _ => []) (fun i => depFound rx0 (fun _ => true) sampleFmt false targets [verbMacro none] sampleFile i) := by
  refine ⟨[.produce, .take 0, .work 0, .produce, .take 0, .work 0], ⟨[], [], [.done ()], [_]⟩, [_],
      by intro i; simp, rfl, ⟨rfl, ?_⟩, rfl, ?_⟩
  · intro w hw
    simp at hw
    exact Or.inl ⟨(), hw⟩
  · funext x; rfl

/-- C70 on the sample corpus: the hypotheses hold, the matrix exists and one entry is 1. -/
example : ∃ mtx, matchMatrix grp0 false (withFound [verbMacro none]
    (fun i => depFound rx0 (fun _ => true) sampleFmt false ["apple/N"] [verbMacro none] sampleFile i)) = .ok mtx ∧ Valid mtx := by
  obtain ⟨_, mtx, _, h2, h3, _⟩ := C70_partial (rx := rx0) (istree := fun _ => true) grp0 sample_settings [sampleFile] (fun _ => [sampleWords])
    (by intro c h; rcases List.mem_singleton.1 h with rfl; exact sample_read)
    (by intro c _ ws h; rcases List.mem_singleton.1 h with rfl; exact sample_sentence) ["apple/N"] [verbMacro none]
    (by intro m h; rcases List.mem_singleton.1 h with rfl; exact sample_macro none)
    (by intro m h; rcases List.mem_singleton.1 h with rfl; rfl) 1 _ (sample_call _)
    (by intro m h; rcases List.mem_singleton.1 h with rfl; exact sample_readable none)
    ⟨_, List.mem_cons_self .., by
      have : (depFound rx0 (fun _ => true) sampleFmt false ["apple/N"] [verbMacro none] sampleFile 0).length = 1 := by decide
      intro h
      have h' : depFound rx0 (fun _ => true) sampleFmt false ["apple/N"] [verbMacro none] sampleFile 0 = [] := h
      rw [h'] at this
      exact absurd this (by decide)⟩
  exact ⟨mtx, h2, h3⟩

end Verif.Dep
