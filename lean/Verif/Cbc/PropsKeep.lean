import Verif.Cbc.Keep
import Verif.Cbc.PropsRounds

/-! # Property theorems C245 (what a clustering leaves in the home directory) -/

set_option linter.unusedSectionVars false

namespace Verif.Cbc

open Verif.Py

variable {K E V : Type} [Field K] [LinearOrder K] [LinearOrder E]

/-! ### Specification -/

/-- The elements a clustering starts with. -/
def given (c : Clustering K E V) (numEles : Int) : List E := if 0 < numEles then c.elements.take numEles.toNat else c.elements

/-- All rounds are used up, and the last one, if any, left more than two residues, but not all its elements. -/
def UsedUp (numIter : Nat) (init : List E) (rounds : List (List (List E) × List E)) : Prop :=
  rounds.length = numIter ∧ ∀ k r, rounds[k]? = some r → k + 1 = rounds.length → 2 < r.2.length ∧ r.2.length ≠ (startOf init rounds k).length

/-- A directory that exists or can be made. -/
def Usable (mc : Machine E) (h : Home E) (p : List String) : Prop := p ∈ h.dirs ∨ mc.canMake p = true

/-! ### The loop -/

theorem run_rounds {C : Type} (steps : List E → Except Err (List C × List E)) (n : Nat) (init : List E) :
    (clusterRun steps n init).1 = clusterLoop steps n init := by
  induction n generalizing init with
  | zero => rfl
  | succ n ih =>
    unfold clusterRun clusterLoop
    split
    · rfl
    · dsimp only
      split
      · rfl
      · split
        · rfl
        · rw [ih]

theorem run_used_up (steps : List E → Except Err (List (List E) × List E)) (n : Nat) (init : List E) :
    (clusterRun steps n init).2 = true ↔ init = [] ∨ UsedUp n init (clusterLoop steps n init) := by
  induction n generalizing init with
  | zero =>
    refine ⟨fun _ => Or.inr ⟨rfl, fun k r h => by cases h⟩, fun _ => rfl⟩
  | succ n ih =>
    unfold clusterRun clusterLoop
    by_cases h0 : init = []
    · simp [h0]
    · rw [if_neg h0, if_neg h0]
      dsimp only
      by_cases h2 : (roundOf steps init).2.length ≤ 2
      · rw [if_pos h2, if_pos h2]
        refine ⟨fun h => by simp at h, fun h => ?_⟩
        rcases h with h | h
        · exact absurd h h0
        · have := (h.2 0 _ rfl rfl).1
          omega
      · rw [if_neg h2, if_neg h2]
        by_cases h3 : (roundOf steps init).2.length = init.length
        · rw [if_pos h3, if_pos h3]
          refine ⟨fun h => by simp at h, fun h => ?_⟩
          rcases h with h | h
          · exact absurd h h0
          · exact absurd h3 (h.2 0 _ rfl rfl).2
        · rw [if_neg h3, if_neg h3]
          dsimp only
          rw [ih]
          have hne : (roundOf steps init).2 ≠ [] := fun e => h2 (by rw [e]; exact Nat.zero_le _)
          constructor
          · rintro (h | ⟨h4, h5⟩)
            · exact absurd h hne
            · refine Or.inr ⟨by rw [List.length_cons, h4], fun k r hk hl => ?_⟩
              cases k with
              | zero =>
                cases hk
                exact ⟨by omega, h3⟩
              | succ k =>
                rw [startOf_cons_succ]
                exact h5 k r hk (by rw [List.length_cons] at hl; omega)
          · rintro (h | ⟨h4, h5⟩)
            · exact absurd h h0
            · refine Or.inr ⟨by rw [List.length_cons] at h4; omega, fun k r hk hl => ?_⟩
              have := h5 (k + 1) r hk (by rw [List.length_cons]; omega)
              rwa [startOf_cons_succ] at this

theorem makeDir_usable {mc : Machine E} {h : Home E} {p : List String} (hp : Usable mc h p) :
    ∃ h', makeDir mc p h = .ok h' ∧ h'.files = h.files ∧ ∀ q, q ∈ h'.dirs ↔ q ∈ h.dirs ∨ q = p := by
  unfold makeDir
  by_cases hd : p ∈ h.dirs
  · rw [if_pos hd]
    refine ⟨h, rfl, rfl, fun q => ⟨Or.inl, ?_⟩⟩
    rintro (hq | rfl)
    · exact hq
    · exact hd
  · rw [if_neg hd]
    rcases hp with hp | hp
    · exact absurd hp hd
    · rw [if_pos hp]
      refine ⟨_, rfl, rfl, fun q => ?_⟩
      rw [List.mem_cons]
      exact or_comm

theorem makeDir_unusable {mc : Machine E} {h : Home E} {p : List String} (hp : ¬ Usable mc h p) : ∃ e, makeDir mc p h = .error e := by
  unfold Usable at hp
  unfold makeDir
  rw [if_neg (fun hh => hp (Or.inl hh)), if_neg (fun hh => hp (Or.inr hh))]
  exact ⟨_, rfl⟩

theorem keep_ok {mc : Machine E} {stamp : String} {h : Home E} (rounds : List (List (List E) × List E))
    (hp : Usable mc h [".cbc", "res." ++ stamp]) : (keepResults mc stamp rounds h).1 = .ok rounds := by
  obtain ⟨h', h1, _⟩ := makeDir_usable hp
  unfold keepResults
  rw [h1]

theorem keeping_eq {mc : Machine E} {stamp : String} {c : Clustering K E V} {numEles : Int} {h h0 : Home E} (e0 : makeDir mc [".cbc"] h = .ok h0) :
    clusterKeeping mc stamp c numEles h =
      if (clusterRun (majorSteps c) c.numIter (given c numEles)).2 then keepResults mc stamp (cluster c numEles) h0
      else (.ok (cluster c numEles), h0) := by
  have e : cluster c numEles = (clusterRun (majorSteps c) c.numIter (given c numEles)).1 := (run_rounds _ _ _).symm
  rw [e]
  unfold clusterKeeping
  rw [e0]
  rfl

/-! ## C245 -/

/-- **C245**, the result: with a home directory in which the two directories exist or can be made, `cluster` returns the committees and
residues of all rounds, whatever becomes of the files. -/
theorem C245_result {mc : Machine E} {stamp : String} {c : Clustering K E V} {numEles : Int} {h : Home E}
    (h1 : Usable mc h [".cbc"]) (h2 : Usable mc h [".cbc", "res." ++ stamp]) :
    (clusterKeeping mc stamp c numEles h).1 = .ok (cluster c numEles) := by
  obtain ⟨h0, e0, ef, ed⟩ := makeDir_usable h1
  rw [keeping_eq e0]
  split
  · refine keep_ok _ ?_
    rcases h2 with h2 | h2
    · exact Or.inl ((ed _).2 (Or.inl h2))
    · exact Or.inr h2
  · rfl

/-- **C245**, other files: only the two result files of the time of the run can change. -/
theorem C245_others {mc : Machine E} {stamp : String} {c : Clustering K E V} {numEles : Int} {h : Home E} {q : List String}
    (hc : q ≠ [".cbc", "res." ++ stamp, "Cs"]) (hr : q ≠ [".cbc", "res." ++ stamp, "Rs"]) :
    (clusterKeeping mc stamp c numEles h).2.files q = h.files q := by
  have hw : ∀ {p : List String} {b : Bool} {a : Kept E} {g : Home E}, q ≠ p → (writeDoc mc p b a g).1.files q = g.files q := by
    intro p b a g hq
    unfold writeDoc
    split
    · exact if_neg hq
    · rfl
  by_cases h1 : Usable mc h [".cbc"]
  · obtain ⟨h0, e0, ef, _⟩ := makeDir_usable h1
    rw [keeping_eq e0]
    split
    · unfold keepResults
      by_cases h2 : Usable mc h0 [".cbc", "res." ++ stamp]
      · obtain ⟨g, e1, ef1, _⟩ := makeDir_usable h2
        rw [e1]
        dsimp only
        split
        · rw [show (saveResidues mc [".cbc", "res." ++ stamp] ((cluster c numEles).map Prod.snd)
            (saveComms mc [".cbc", "res." ++ stamp] ((cluster c numEles).map Prod.fst) g).1).1.files q = _ from hw hr,
            show (saveComms mc [".cbc", "res." ++ stamp] ((cluster c numEles).map Prod.fst) g).1.files q = _ from hw hc, ef1, ef]
        · rw [show (saveComms mc [".cbc", "res." ++ stamp] ((cluster c numEles).map Prod.fst) g).1.files q = _ from hw hc, ef1, ef]
      · obtain ⟨e, he⟩ := makeDir_unusable h2
        rw [he]
        dsimp only
        rw [ef]
    · dsimp only
      rw [ef]
  · obtain ⟨e, he⟩ := makeDir_unusable h1
    unfold clusterKeeping
    rw [he]

/-- **C245**, what is kept: if no element was given or all rounds are used up, the directories and files can be written, the elements of the
committees can be written in the encoding of the locale and the residues in `latin1`, then the two files hold the committees and the
residues of all rounds that are returned.  Missing: runs that end because there are at most two residues or no new committee, and
residues with other characters (`C245_false`, `C245_never`). -/
theorem C245_kept_partial {mc : Machine E} {stamp : String} {c : Clustering K E V} {numEles : Int} {h : Home E}
    (h1 : Usable mc h [".cbc"]) (h2 : Usable mc h [".cbc", "res." ++ stamp])
    (hend : given c numEles = [] ∨ UsedUp c.numIter (given c numEles) (cluster c numEles))
    (oc : mc.canOpen [".cbc", "res." ++ stamp, "Cs"] = true) (or : mc.canOpen [".cbc", "res." ++ stamp, "Rs"] = true)
    (ec : ∀ r ∈ cluster c numEles, ∀ comm ∈ r.1, ∀ e ∈ comm, ∀ x ∈ mc.text e, mc.locale x = true)
    (er : ∀ r ∈ cluster c numEles, ∀ e ∈ r.2, ∀ x ∈ mc.text e, x.toNat < 256) :
    (clusterKeeping mc stamp c numEles h).2.files [".cbc", "res." ++ stamp, "Cs"] =
        some (.whole (.comms ((cluster c numEles).map Prod.fst))) ∧
      (clusterKeeping mc stamp c numEles h).2.files [".cbc", "res." ++ stamp, "Rs"] =
        some (.whole (.residues ((cluster c numEles).map Prod.snd))) := by
  obtain ⟨h0, e0, ef, ed⟩ := makeDir_usable h1
  have h2' : Usable mc h0 [".cbc", "res." ++ stamp] := by
    rcases h2 with h2 | h2
    · exact Or.inl ((ed _).2 (Or.inl h2))
    · exact Or.inr h2
  obtain ⟨g, e1, ef1, _⟩ := makeDir_usable h2'
  have hrun := (run_used_up (majorSteps c) c.numIter (given c numEles)).2 hend
  have fc : encodes mc mc.locale ((cluster c numEles).map Prod.fst).flatten.flatten = true := by
    unfold encodes
    rw [List.all_eq_true]
    intro e he
    rw [List.all_eq_true]
    simp only [List.mem_flatten, List.mem_map] at he
    obtain ⟨comm, ⟨cs, ⟨r, hr, rfl⟩, hcm⟩, he⟩ := he
    exact ec r hr comm hcm e he
  have fr : encodes mc latin1 ((cluster c numEles).map Prod.snd).flatten = true := by
    unfold encodes
    rw [List.all_eq_true]
    intro e he
    rw [List.all_eq_true]
    simp only [List.mem_flatten, List.mem_map] at he
    obtain ⟨rs, ⟨r, hr, rfl⟩, he⟩ := he
    intro x hx
    exact decide_eq_true (er r hr e he x hx)
  have key : (clusterKeeping mc stamp c numEles h).2 =
      (saveResidues mc [".cbc", "res." ++ stamp] ((cluster c numEles).map Prod.snd)
        (saveComms mc [".cbc", "res." ++ stamp] ((cluster c numEles).map Prod.fst) g).1).1 := by
    rw [keeping_eq e0, hrun, if_pos rfl]
    unfold keepResults
    rw [e1]
    have hw : (saveComms mc [".cbc", "res." ++ stamp] ((cluster c numEles).map Prod.fst) g).2 = true := by
      unfold saveComms writeDoc
      rw [show [".cbc", "res." ++ stamp] ++ ["Cs"] = [".cbc", "res." ++ stamp, "Cs"] from rfl, if_pos oc]
      exact fc
    simp only [hw, if_true]
  rw [key]
  unfold saveResidues saveComms writeDoc
  rw [show [".cbc", "res." ++ stamp] ++ ["Cs"] = [".cbc", "res." ++ stamp, "Cs"] from rfl,
    show [".cbc", "res." ++ stamp] ++ ["Rs"] = [".cbc", "res." ++ stamp, "Rs"] from rfl, if_pos or, if_pos oc, fc, fr]
  constructor
  · dsimp only
    rw [if_neg (by simp), if_pos rfl]
    rfl
  · dsimp only
    rw [if_pos rfl]
    rfl

/-- **C245 is false**: a clustering whose last round leaves at most two residues, or all its elements, keeps nothing at all, on every
machine and whatever its elements. -/
theorem C245_never {mc : Machine E} {stamp : String} {c : Clustering K E V} {numEles : Int} {h : Home E}
    (hne : given c numEles ≠ []) (hend : ¬ UsedUp c.numIter (given c numEles) (cluster c numEles)) :
    (clusterKeeping mc stamp c numEles h).2.files = h.files := by
  have hrun : (clusterRun (majorSteps c) c.numIter (given c numEles)).2 = false := by
    rw [← Bool.not_eq_true, run_used_up]
    rintro (hh | hh)
    · exact hne hh
    · exact hend hh
  by_cases h1 : Usable mc h [".cbc"]
  · obtain ⟨h0, e0, ef, _⟩ := makeDir_usable h1
    rw [keeping_eq e0, hrun]
    exact ef
  · obtain ⟨e, he⟩ := makeDir_unusable h1
    unfold clusterKeeping
    rw [he]

/-- **C245**, directories: if the directory of the results cannot be made, a clustering that would keep its results raises an exception
instead of returning them. -/
theorem C245_lost {mc : Machine E} {stamp : String} {c : Clustering K E V} {numEles : Int} {h : Home E}
    (hend : given c numEles = [] ∨ UsedUp c.numIter (given c numEles) (cluster c numEles))
    (h2 : ¬ Usable mc h [".cbc", "res." ++ stamp]) : ∃ e, (clusterKeeping mc stamp c numEles h).1 = .error e := by
  have hrun := (run_used_up (majorSteps c) c.numIter (given c numEles)).2 hend
  by_cases h1 : Usable mc h [".cbc"]
  · obtain ⟨h0, e0, ef, ed⟩ := makeDir_usable h1
    rw [keeping_eq e0, hrun, if_pos rfl]
    have h2' : ¬ Usable mc h0 [".cbc", "res." ++ stamp] := by
      rintro (hh | hh)
      · rcases (ed _).1 hh with hh | hh
        · exact h2 (Or.inl hh)
        · simp at hh
      · exact h2 (Or.inr hh)
    obtain ⟨e, he⟩ := makeDir_unusable h2'
    refine ⟨e, ?_⟩
    unfold keepResults
    rw [he]
  · obtain ⟨e, he⟩ := makeDir_unusable h1
    unfold clusterKeeping
    rw [he]
    exact ⟨e, rfl⟩

/-- **C245**, order: if the file of the committees cannot be opened, or a word in a committee cannot be written in the encoding of the
locale, then the residues are not kept either; their file stays as it was. -/
theorem C245_first {mc : Machine E} {stamp : String} {c : Clustering K E V} {numEles : Int} {h : Home E}
    (hbad : mc.canOpen [".cbc", "res." ++ stamp, "Cs"] = false ∨
      ∃ r ∈ cluster c numEles, ∃ comm ∈ r.1, ∃ e ∈ comm, ∃ x ∈ mc.text e, mc.locale x = false) :
    (clusterKeeping mc stamp c numEles h).2.files [".cbc", "res." ++ stamp, "Rs"] = h.files [".cbc", "res." ++ stamp, "Rs"] := by
  have hmk : ∀ (p : List String) (g g' : Home E), makeDir mc p g = .ok g' → g'.files = g.files := by
    intro p g g' hg
    unfold makeDir at hg
    split at hg
    · rw [Except.ok.inj hg]
    · split at hg
      · rw [← Except.ok.inj hg]
      · exact (nomatch hg)
  cases e0 : makeDir mc [".cbc"] h with
  | error e =>
    unfold clusterKeeping
    rw [e0]
  | ok h0 =>
    rw [keeping_eq e0, ← hmk _ _ _ e0]
    split
    · unfold keepResults
      cases e1 : makeDir mc [".cbc", "res." ++ stamp] h0 with
      | error e => rfl
      | ok h1 =>
        simp only
        rw [← hmk _ _ _ e1]
        have hw : (saveComms mc [".cbc", "res." ++ stamp] ((cluster c numEles).map Prod.fst) h1).2 = false := by
          unfold saveComms writeDoc
          rcases hbad with hb | ⟨r, hr, comm, hcm, e, he, x, hx, hl⟩
          · rw [if_neg (by simpa using hb)]
          · split
            · simp only
              cases hf : encodes mc mc.locale ((cluster c numEles).map Prod.fst).flatten.flatten with
              | false => rfl
              | true =>
                unfold encodes at hf
                rw [List.all_eq_true] at hf
                have h1 := hf e (by
                  simp only [List.mem_flatten, List.mem_map]
                  exact ⟨comm, ⟨r.1, ⟨r, hr, rfl⟩, hcm⟩, he⟩)
                rw [List.all_eq_true] at h1
                rw [h1 x hx] at hl
                exact (nomatch hl)
            · rfl
        rw [hw]
        simp only [Bool.false_eq_true, if_false]
        unfold saveComms writeDoc
        split
        · simp
        · rfl
    · rfl

/-! ### Concrete cases -/

/-- A machine on which everything can be written; the element 3 is a word with a letter outside `latin1`. -/
def exMachine : Machine Nat := ⟨fun _ => true, fun _ => true, fun _ => true, fun n => if n = 3 then [Char.ofNat 0x101] else [Char.ofNat (96 + n)]⟩

def emptyHome : Home Nat := ⟨[], fun _ => none⟩

/-- As `exCbc`, with one round only. -/
def oneRound (elements : List Nat) : Clustering ℚ Nat Nat := { exCbc [(1, [1, 2])] elements elements with numIter := 1 }

/-- A case that meets the hypotheses of `C245_kept_partial`: one round, residues 4, 5 and 6. -/
example : given (oneRound [1, 2, 4, 5, 6]) (-1) = [1, 2, 4, 5, 6] ∧ cluster (oneRound [1, 2, 4, 5, 6]) (-1) = [([[1, 2]], [4, 5, 6])] ∧
    UsedUp 1 [1, 2, 4, 5, 6] [([[1, 2]], [4, 5, 6])] ∧
    (clusterKeeping exMachine "1" (oneRound [1, 2, 4, 5, 6]) (-1) emptyHome).2.files [".cbc", "res.1", "Rs"] =
      some (.whole (.residues [[4, 5, 6]])) := by
  refine ⟨by decide +kernel, by decide +kernel, ⟨rfl, ?_⟩, by decide +kernel⟩
  intro k r hk _
  cases k with
  | zero => cases hk; exact ⟨by decide, by decide⟩
  | succ k => cases hk

/-- A case that meets the hypothesis of `C245_first`: a locale without the first letter of element 1. -/
example : ∃ r ∈ cluster (oneRound [1, 2, 4, 5, 6]) (-1), ∃ comm ∈ r.1, ∃ e ∈ comm, ∃ x ∈ exMachine.text e, (fun ch : Char => decide (ch ≠ 'a')) x = false :=
  ⟨([[1, 2]], [4, 5, 6]), by decide +kernel, [1, 2], by decide, 1, by decide, 'a', by decide, by decide⟩

/-- **C245 is false**: a run that ends as it should, with two residues, keeps nothing; and where the results are kept, the file of the
residues breaks off at a word with a letter outside `latin1`. -/
theorem C245_false :
    (clusterKeeping exMachine "1" (exCbc [(1, [1, 2])] [1, 2, 4, 5] [1, 2, 4, 5]) (-1) emptyHome).1 = .ok [([[1, 2]], [4, 5])] ∧
    (clusterKeeping exMachine "1" (exCbc [(1, [1, 2])] [1, 2, 4, 5] [1, 2, 4, 5]) (-1) emptyHome).2.files [".cbc", "res.1", "Cs"] = none ∧
    (clusterKeeping exMachine "1" (oneRound [1, 2, 3, 4, 5]) (-1) emptyHome).1 = .ok [([[1, 2]], [3, 4, 5])] ∧
    (clusterKeeping exMachine "1" (oneRound [1, 2, 3, 4, 5]) (-1) emptyHome).2.files [".cbc", "res.1", "Cs"] =
      some (.whole (.comms [[[1, 2]]])) ∧
    (clusterKeeping exMachine "1" (oneRound [1, 2, 3, 4, 5]) (-1) emptyHome).2.files [".cbc", "res.1", "Rs"] = some .cut := by
  refine ⟨by decide +kernel, by decide +kernel, by decide +kernel, by decide +kernel, by decide +kernel⟩

end Verif.Cbc
