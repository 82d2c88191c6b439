import Verif.Cbc.Init
import Verif.Cbc.PropsRounds
import Verif.Assoc.PropsSums

/-!
# C196: what `CBC` does with the arguments it documents
-/

set_option linter.unusedSectionVars false

namespace Verif.Cbc

open Verif.Py

variable {K E V : Type} [Field K] [LinearOrder K] [LinearOrder E]

/-- A round that fails for the first elements makes the whole clustering one empty round. -/
theorem clusterLoop_failed {C : Type} {steps : List E → Except Err (List C × List E)} {eles : List E}
    (h : ∃ e, steps eles = .error e) (he : eles ≠ []) {n : Nat} (hn : 0 < n) : clusterLoop steps n eles = [([], [])] := by
  obtain ⟨err, h⟩ := h
  cases n with
  | zero => cases hn
  | succ n => simp [clusterLoop, he, roundOf, h]

theorem step2_empty (c : Clustering K E V) (elements rows : List E) : step2 c elements rows [] = .error .value := by
  unfold step2
  simp

theorem step1Single_none {C : Type} {cluster : E → Except Err (List C)} {eles : List E}
    (h : ∀ e ∈ eles, ∃ err, cluster e = .error err) : step1Single cluster eles = [] := by
  unfold step1Single
  rw [List.flatMap_eq_nil_iff]
  intro e he
  obtain ⟨err, h⟩ := h e he
  simp [clustersOf, h]

/-- **C196, partial**: given the frequencies, the association measures and the distances as named matrices, `CBC(...)`
never fails, keeps what it was given, and `cluster` goes through the rounds that C45, C72, C76 and C78 describe, single
core or multicore.
Missing: plain arrays (`C196_arrays`) and left out matrices (`C196_no_association`, `C196_no_distances`). -/
theorem C196_partial (dist : MatArg E → Except Assoc.Err (Matrix.Sp ℝ)) (elements ri rj rk : List E) (f m d : Matrix.Sp ℝ)
    (opts : Options K) :
    ∃ o, newCBC dist elements (.named ri f) (some (.named rj m)) (some (.named rk d)) opts = .ok o ∧
      o.elements = elements ∧ o.freqmx = .named ri f ∧ o.measmx = .named rj m ∧ o.distmx = .named rk d ∧ o.opts = opts ∧
      ∀ (c : Clustering K E V), c.elements = elements → c.numIter = opts.numIter →
        ∀ (multicore : List E → Bool) (numEles : Int), clusterObj o c multicore numEles = cluster c numEles := by
  refine ⟨⟨elements, .named ri f, .named rj m, .named rk d, opts⟩, rfl, rfl, rfl, rfl, rfl, rfl, ?_⟩
  intro c hc hn multicore numEles
  unfold clusterObj cluster
  rw [hc, hn]
  congr 1
  funext eles
  unfold majorStepsObj majorSteps step1With
  simp [MatArg.isNamed]

/-- **C196 is false**: without association measures the constructor fails, with a `TypeError` for every named matrix, and with a
`TypeError` or an `IndexError` for every array that stores anything. -/
theorem C196_no_association (dist : MatArg E → Except Assoc.Err (Matrix.Sp ℝ)) (elements items : List E) (s : Matrix.Sp ℝ)
    (distmx : Option (MatArg E)) (opts : Options K) :
    newCBC dist elements (.named items s) none distmx opts = .error (.py .typeError) ∧
    (s.WF → s.data ≠ [] →
      newCBC dist elements (.array s) none distmx opts =
        .error (.py (if s.nr = 1 ∨ s.nc = 1 then .indexError else .typeError))) := by
  refine ⟨rfl, fun hw hd => ?_⟩
  have hp : Assoc.parseMeas "ppmi" = some .ppmi := by simp [Assoc.parseMeas]
  unfold newCBC measOf missingMeas
  simp only
  by_cases h1 : s.nr = 1 ∨ s.nc = 1
  · rw [if_pos h1, Assoc.C123_one_row_or_column hw h1 hd hp none]
    rfl
  · rw [if_neg h1, Assoc.C123_no_total hw (fun h => h1 (.inl h)) (fun h => h1 (.inr h)) hd hp]
    rfl

theorem majorStepsObj_array {o : Obj K E} (c : Clustering K E V) (multicore : Bool) (eles : List E)
    (h : ¬ (o.freqmx.isNamed ∧ o.measmx.isNamed ∧ o.distmx.isNamed)) :
    ∃ e, majorStepsObj o c multicore eles = .error e := by
  unfold majorStepsObj
  by_cases he : o.elements = eles
  · rw [if_neg (fun hh => hh.1 he)]
    cases hr : roundRows c eles with
    | error e => exact ⟨e, rfl⟩
    | ok rows =>
      simp only [bind, Except.bind]
      cases hL : step1With multicore o.distmx c.step1 eles with
      | error e => exact ⟨e, rfl⟩
      | ok L =>
        simp only
        by_cases hfm : o.freqmx.isNamed = true ∧ o.measmx.isNamed = true
        · rw [if_neg (not_not_intro hfm)]
          have hd : o.distmx.isNamed = false := by
            rcases hb : o.distmx.isNamed with _ | _
            · rfl
            · exact absurd ⟨hfm.1, hfm.2, hb⟩ h
          have : L = [] := by
            unfold step1With at hL
            rw [hd] at hL
            cases multicore with
            | true => simp at hL
            | false =>
              simp only [Bool.false_eq_true, if_false] at hL
              rw [step1Single_none (fun _ _ => ⟨_, rfl⟩)] at hL
              exact (Except.ok.inj hL).symm
          subst this
          rw [step2_empty]
          exact ⟨_, rfl⟩
        · rw [if_pos hfm]
          exact ⟨_, rfl⟩
  · rw [if_pos ⟨he, h⟩]
    exact ⟨_, rfl⟩

/-- **C196 is false**: when any of the three matrices is a plain array, as documented for all three, clustering any elements
gives one round without committees and without residues, and no error. -/
theorem C196_arrays {o : Obj K E} (h : o.freqmx.isNamed = false ∨ o.measmx.isNamed = false ∨ o.distmx.isNamed = false)
    (c : Clustering K E V) (multicore : List E → Bool) (numEles : Int) (he : o.elements ≠ []) (hn : 0 < o.opts.numIter) :
    clusterObj o c multicore numEles = [([], [])] := by
  unfold clusterObj
  refine clusterLoop_failed (steps := fun eles => majorStepsObj o c (multicore eles) eles)
    (majorStepsObj_array c (multicore _) _ ?_) ?_ hn
  · rintro ⟨h1, h2, h3⟩
    rcases h with h | h | h
    · exact absurd (h.symm.trans h1) (by decide)
    · exact absurd (h.symm.trans h2) (by decide)
    · exact absurd (h.symm.trans h3) (by decide)
  · split
    · next hp =>
      intro hnil
      rcases List.take_eq_nil_iff.mp hnil with h0 | h0
      · omega
      · exact he h0
    · exact he

/-- **C196 is false**: when the distances are left out they are computed as a plain array, so that the clustering of any elements
is again one empty round. -/
theorem C196_no_distances {dist : MatArg E → Except Assoc.Err (Matrix.Sp ℝ)} {elements : List E} {freqmx : MatArg E}
    {measmx : Option (MatArg E)} {opts : Options K} {o : Obj K E} (h : newCBC dist elements freqmx measmx none opts = .ok o)
    (c : Clustering K E V) (multicore : List E → Bool) (numEles : Int) (he : elements ≠ []) (hn : 0 < opts.numIter) :
    clusterObj o c multicore numEles = [([], [])] := by
  unfold newCBC distOf at h
  cases hm : measOf freqmx measmx with
  | error e => rw [hm] at h; cases h
  | ok meas =>
    rw [hm] at h
    cases hd : dist meas with
    | error e =>
      simp only [bind, Except.bind, hd, Except.map] at h
      cases h
    | ok d =>
      simp only [bind, Except.bind, hd, Except.map, pure, Except.pure] at h
      obtain rfl := Except.ok.inj h
      exact C196_arrays (.inr (.inr rfl)) c multicore numEles he hn

/-- **C196 is false**: with `prune_method='minsize'` and a word for the threshold, as the default `t='median'` is, no element
contributes a cluster, and the clustering of any elements is one empty round. -/
theorem C196_minsize (st : Stats K) (linkage : E → Except Err (List (K × Nat))) (fcluster : E → K → List Nat)
    (finish : E → List Nat → Except Err (List (K × List E))) (word : String) (hZ : ∀ e, linkage e ≠ .ok [])
    (c : Clustering K E V) (hc : ∀ eles, c.step1 false eles =
      .ok (step1Single (similarOf st linkage fcluster finish (.str word) "minsize") eles))
    (numEles : Int) (he : c.elements ≠ []) (hn : 0 < c.numIter) : cluster c numEles = [([], [])] := by
  unfold cluster
  refine clusterLoop_failed ?_ ?_ hn
  · unfold majorSteps
    generalize (if 0 < numEles then c.elements.take numEles.toNat else c.elements) = eles
    cases hr : roundRows c eles with
    | error e => exact ⟨e, rfl⟩
    | ok rows =>
      rw [hc eles]
      have : step1Single (similarOf st linkage fcluster finish (.str word) "minsize") eles = [] := by
        refine step1Single_none (fun e _ => ?_)
        unfold similarOf
        cases hl : linkage e with
        | error err => exact ⟨err, rfl⟩
        | ok Z =>
          have hne : Z ≠ [] := fun h0 => hZ e (by rw [hl, h0])
          exact ⟨.value, by simp [bind, Except.bind, flatCluster, cutHeight, hne]⟩
      rw [this]
      simp only [bind, Except.bind]
      rw [step2_empty]
      exact ⟨_, rfl⟩
  · split
    · next hp =>
      intro hnil
      rcases List.take_eq_nil_iff.mp hnil with h0 | h0
      · omega
      · exact he h0
    · exact he

/-! ### Concrete inputs -/

/-- Default options with five rounds. -/
def exOptions : Options ℚ := ⟨100, 7/20, 1/4, "distance", .str "median", "without_size", false, 5⟩

/-- Non-vacuity for C196: an array that stores something; an object whose distances are an array; a minsize clustering. -/
example : ∃ s : Matrix.Sp ℝ, s.WF ∧ s.data ≠ [] ∧
    (∃ o : Obj ℚ Nat, newCBC (fun _ => .ok s) [1, 2] (.named [1, 2] s) (some (.named [1, 2] s)) none exOptions = .ok o ∧
      o.elements ≠ [] ∧ 0 < o.opts.numIter) := by
  refine ⟨⟨.csr, 2, 2, [((0, 1), 2), ((1, 0), 3)]⟩, ⟨by unfold Dict.WF; decide, by decide⟩, by simp, ?_⟩
  exact ⟨_, rfl, by decide, by decide⟩

/-- The statistics of the example, all 0. -/
def exStats : Stats ℚ := ⟨fun _ => 0, fun _ => 0, fun _ _ => .ok 0⟩

/-- A clustering whose step 1 prunes by size with the default threshold. -/
def exMinsize (t : Threshold ℚ) : Clustering ℚ Nat Nat :=
  { exCbc [] [1, 2] [1, 2] with
    step1 := fun _ eles => .ok (step1Single
      (similarOf exStats (fun _ => .ok [(1/2, 2)]) (fun _ _ => [1, 1]) (fun _ _ => .ok [(1, [1, 2])]) t "minsize") eles) }

/-- With the word nothing is found, with a number the two elements form a committee. -/
example : cluster (exMinsize (.str "median")) (-1) = [([], [])] ∧ cluster (exMinsize (.num 2)) (-1) = [([[1, 2]], [])] := by
  constructor
  · exact C196_minsize exStats (fun _ => .ok [(1/2, 2)]) (fun _ _ => [1, 1]) (fun _ _ => .ok [(1, [1, 2])]) "median"
      (fun _ h => nomatch h) (exMinsize (.str "median")) (fun _ => rfl) (-1) (by decide) (by decide)
  · decide +kernel

end Verif.Cbc
