import Verif.Matrix.PropsQuery
import Verif.Matrix.PropsStore
import Verif.Matrix.PropsMerge

/-!
# Exact outcomes where C55, C56, C58 and C60 fail; what loading can touch (C57)
-/

set_option linter.unusedSectionVars false

namespace Verif.Matrix
open Verif.Py
open Verif.Vocab.Plain (Str)

variable {κ ν : Type} [LinearOrder κ]

/-- **C55**, the failures: merging two sparse matrices is a `ValueError` exactly if neither stores an entry. -/
theorem C55_empty {m t : Mtx κ Int} (hm : Valid m) (ht : Valid t) {a b : Sp Int} (ha : m.body = .sp a) (hb : t.body = .sp b) :
    (∃ e, mergeByName m t = .error e) ↔ a.data = [] ∧ b.data = [] := by
  constructor
  · rintro ⟨e, he⟩
    by_contra hne
    obtain ⟨u, hu, _⟩ := C55_merge_partial hm ht ha hb (by tauto)
    rw [he] at hu
    cases hu
  · rintro ⟨h1, h2⟩
    refine ⟨.valueError, ?_⟩
    unfold mergeByName spToDict
    rw [ha, hb]
    simp only [h1, h2]
    rfl

/-- The matrix is sparse and stores nothing. -/
def StoresNothing (m : Mtx κ ν) : Prop := ∃ s, m.body = .sp s ∧ s.data = []

theorem foldl_mergeDict_nil (n : Nat) : (List.replicate n ([] : Dict κ (Dict κ Int))).foldl mergeDict [] = [] := by
  induction n with
  | zero => rfl
  | succ n ih => rw [List.replicate_succ, List.foldl_cons]; exact ih

theorem mapM_mtxToDict_nil (ms : List (Mtx κ Int)) (h : ∀ x ∈ ms, StoresNothing x) :
    ms.mapM mtxToDict = .ok (List.replicate ms.length []) := by
  induction ms with
  | nil => rfl
  | cons m ms ih =>
    obtain ⟨s, hb, hd⟩ := h m (by simp)
    have : mtxToDict m = .ok [] := by
      unfold mtxToDict spOf
      rw [hb]
      show spToDict s m.rows m.cols = _
      unfold spToDict
      rw [hd]
      rfl
    rw [List.mapM_cons, this, ih (fun x hx => h x (by simp [hx]))]
    rfl

theorem entry_storesNothing {m : Mtx κ Int} (h : StoresNothing m) (r c : κ) : entry m r c = 0 := by
  obtain ⟨s, hb, hd⟩ := h
  unfold entry
  rw [hb]
  cases m.rows.idxOf? r <;> cases m.cols.idxOf? c <;> simp only [Body.val]
  unfold Sp.val Sp.stored
  rw [hd]
  rfl

/-- **C56**, the failures: merging a list of sparse matrices none of which stores an entry is a `ValueError` if two of them have
different items, and otherwise gives the zero matrix over their items. -/
theorem C56_empty {m : Mtx κ Int} {ms : List (Mtx κ Int)} (hv : ∀ x ∈ m :: ms, Valid x) (hst : ∀ x ∈ m :: ms, StoresNothing x) :
    ((∃ x ∈ ms, ¬ (x.rows = m.rows ∧ x.cols = m.cols)) → mergeAll (m :: ms) = .error .valueError) ∧
    ((∀ x ∈ ms, x.rows = m.rows ∧ x.cols = m.cols) → ∃ u, mergeAll (m :: ms) = .ok (some (u, m.rows, m.cols)) ∧
      ∀ r c, entry (⟨.sp u, m.rows, m.cols⟩ : Mtx κ Int) r c = 0) := by
  constructor
  · rintro ⟨x, hx, hd⟩
    cases ms with
    | nil => simp at hx
    | cons y ys =>
      unfold mergeAll
      simp only
      rw [if_neg]
      · rw [mapM_mtxToDict_nil _ hst]
        show (do
          let u ← dictToSp ((List.replicate (m :: y :: ys).length ([] : Dict κ (Dict κ Int))).foldl mergeDict []) _ _
          .ok (some (u, _, _))) = _
        rw [foldl_mergeDict_nil]
        rfl
      · intro h
        have := List.all_eq_true.1 h x hx
        simp only [Bool.and_eq_true, decide_eq_true_eq] at this
        exact hd this
  · intro hi
    obtain ⟨s, hb, hd⟩ := hst m (by simp)
    have hs : AllSparse ms := fun x hx => by
      obtain ⟨s, hb, _⟩ := hst x (by simp [hx])
      exact ⟨s, hb⟩
    have hms : (⟨.sp s, m.rows, m.cols⟩ : Mtx κ Int) = m := by rw [← hb]
    obtain ⟨u, h1, _, h3⟩ := foldlM_addMtx ms (fun x hx => hv x (by simp [hx])) hs hi (a := s) (by
      rw [hms]
      exact hv m (by simp))
    have hz : ∀ r c, entry (⟨.sp u, m.rows, m.cols⟩ : Mtx κ Int) r c = 0 := by
      intro r c
      rw [h3, hms, entry_storesNothing (hst m (by simp))]
      have : ms.map (fun x => entry x r c) = ms.map (fun _ => (0 : Int)) :=
        List.map_congr_left (fun x hx => entry_storesNothing (hst x (by simp [hx])) r c)
      unfold entrySum
      rw [this]
      simp
    refine ⟨u, ?_, hz⟩
    have hsp : spOf m = .ok s := by unfold spOf; rw [hb]
    cases ms with
    | nil =>
      cases h1
      unfold mergeAll
      simp only
      rw [hsp]
      rfl
    | cons y ys =>
      unfold mergeAll
      simp only
      rw [if_pos, hsp]
      · show (do
          let u ← (y :: ys).foldlM addMtx s
          .ok (some (u, m.rows, m.cols))) = _
        rw [h1]
        rfl
      · rw [List.all_eq_true]
        intro x hx
        simp [hi x hx]

/-- **C58**, exactly: `equal` is true if and only if the matrices agree on all names and store equally many entries. -/
theorem C58_exact [Zero ν] [DecidableEq ν] [AllClose ν] {m t : Mtx κ ν} (hm : Valid m) (ht : Valid t) {a b : Sp ν}
    (ha : m.body = .sp a) (hb : t.body = .sp b) :
    ∃ r, equal m t = .ok r ∧ (r = true ↔ SameNamed m t ∧ a.data.length = b.data.length) := by
  obtain ⟨r, h1, h2, _⟩ := C58_equal_partial hm ht ha hb
  refine ⟨r, h1, fun hr => ⟨h2 hr, ?_⟩, ?_⟩
  · unfold equal at h1
    have hs := h2 hr
    rw [if_neg (by simpa using hs.rows), if_neg (by simpa using hs.cols), ha, hb] at h1
    simp only [Except.ok.injEq] at h1
    rw [hr] at h1
    unfold Sp.equal at h1
    simp only [Bool.and_eq_true, decide_eq_true_eq] at h1
    exact h1.1.2
  · rintro ⟨hs, hl⟩
    unfold equal at h1
    rw [if_neg (by simpa using hs.rows), if_neg (by simpa using hs.cols), ha, hb] at h1
    simp only [Except.ok.injEq] at h1
    rw [← h1]
    have hnr := hm.nr
    have hnc := hm.nc
    have htr := ht.nr
    have htc := ht.nc
    rw [ha] at hnr hnc
    rw [hb, ← hs.rows] at htr
    rw [hb, ← hs.cols] at htc
    have hvals : ∀ i j, i < m.rows.length → j < m.cols.length → a.val i j = b.val i j := by
      intro i j hi hj
      have := hs.entries m.rows[i] m.cols[j]
      rw [entry_of hm.rows hm.cols (List.getElem?_eq_getElem hi) (List.getElem?_eq_getElem hj),
        entry_of ht.rows ht.cols (i := i) (j := j) (by rw [← hs.rows]; exact List.getElem?_eq_getElem hi)
          (by rw [← hs.cols]; exact List.getElem?_eq_getElem hj), ha, hb] at this
      exact this
    unfold Sp.equal
    simp only [Body.nr, Body.nc] at hnr hnc htr htc
    simp only [Bool.and_eq_true, decide_eq_true_eq, List.all_eq_true]
    refine ⟨⟨⟨by omega, by omega⟩, hl⟩, fun p hp => ?_⟩
    rcases List.mem_append.1 hp with h | h
    · have := (hm.sp a ha).bound _ h
      exact hvals _ _ (by omega) (by omega)
    · have := (ht.sp b hb).bound _ h
      exact hvals _ _ (by omega) (by omega)

/-- **C60**, floats from 1 on: a float that is not above the number of rows is a `TypeError`, even a whole one. -/
theorem C60_floats [AllClose ν] (choice : Nat → Nat → List Nat) (m : Mtx κ ν) (p : ℚ) (h1 : 1 ≤ p) (h2 : p ≤ m.rows.length) :
    sample choice m (.f p) = .error .typeError := by
  have hs : sampleSize m.rows.length (.f p) = .error .typeError := by
    have h3 : ¬ (p > (m.rows.length : ℚ)) := not_lt.2 h2
    simp only [sampleSize, PyNum.toRat, h1, if_true, h3, if_false]
  unfold sample
  simp only [hs, bind, Except.bind]

theorem exBind_ok {α β : Type} {x : Except Err α} {f : α → Except Err β} {y : β} (h : (x >>= f) = .ok y) :
    ∃ a, x = .ok a ∧ f a = .ok y := by
  cases x with
  | error e => cases h
  | ok a => exact ⟨a, rfl, h⟩

/-- **C57**, loading: whatever the files are, loading changes at most the two files of the unpacked matrix and those the archive
unpacks to, and a missing archive changes nothing. -/
theorem C57_load_frame [AllClose ν] (fs : FS κ ν) (name p : Str) (pack : Bool)
    (h1 : p ≠ loadBase name ++ extMeta) (h2 : p ≠ loadBase name ++ extNpz) (h3 : p ≠ loadBase name ++ extNpy)
    (h4 : ∀ ms, fs (loadBase name ++ extPac) = some (.zip ms) → ∀ x ∈ ms, p ≠ dirPart (loadBase name ++ extPac) ++ x.1) :
    (load fs name pack).1 p = fs p := by
  cases pack with
  | false => exact C57_load_unpacked_keeps fs name p
  | true =>
    have key : ∀ fs', unpack fs (loadBase name) = .ok fs' → fs' p = fs p := by
      intro fs' h
      unfold unpack at h
      cases hz : fs (loadBase name ++ extPac) with
      | none => rw [hz] at h; cases h
      | some f =>
        rw [hz] at h
        cases f with
        | zip ms =>
          cases h
          have hms := h4 ms hz
          clear hz h4
          unfold extractAll
          generalize fs = gs
          induction ms generalizing gs with
          | nil => rfl
          | cons x ms ih =>
            rw [List.foldl_cons, ih (fun y hy => hms y (by simp [hy]))]
            unfold FS.write
            rw [if_neg (hms x (by simp))]
        | _ => cases h
    unfold load
    simp only [if_true]
    cases hu : unpack fs (loadBase name) with
    | error e => rfl
    | ok fs' =>
      simp only
      cases hr : readParts fs' (loadBase name) with
      | error e => exact key fs' hu
      | ok x =>
        obtain ⟨mx, b, rows, cols⟩ := x
        simp only
        have hmx : p ≠ mx := by
          unfold readParts at hr
          obtain ⟨y, hy, hr⟩ := exBind_ok hr
          have hyx : y = mx := by
            repeat' split at hr
            all_goals first | (cases hr; rfl) | cases hr | skip
            all_goals
              obtain ⟨_, _, hr⟩ := exBind_ok hr
              cases hr
              rfl
          rw [← hyx]
          repeat' split at hy
          all_goals first | (cases hy; assumption) | cases hy
        unfold FS.remove
        rw [if_neg hmx, if_neg h1]
        exact key fs' hu

/-- Two empty matrices with the same rows and different columns cannot be merged; one that stores a zero is not equal to one that
does not; of two rows a sample of 1.5 is a `TypeError`. -/
example : (let m : Mtx Nat Int := ⟨.sp ⟨.csr, 1, 1, []⟩, [1], [5]⟩
    let t : Mtx Nat Int := ⟨.sp ⟨.csr, 1, 1, []⟩, [1], [6]⟩
    StoresNothing m ∧ StoresNothing t ∧ mergeAll [m, t] = .error .valueError ∧ mergeByName m t = .error .valueError) ∧
    (let m : Mtx Nat Int := ⟨.sp ⟨.csr, 1, 1, [((0, 0), 0)]⟩, [1], [5]⟩
    let t : Mtx Nat Int := ⟨.sp ⟨.csr, 1, 1, []⟩, [1], [5]⟩
    equal m t = .ok false ∧ equal m m = .ok true) ∧
    (1 : ℚ) ≤ 3 / 2 ∧ (3 / 2 : ℚ) ≤ (([1, 2] : List Nat).length : ℚ) := by
  refine ⟨⟨⟨_, rfl, rfl⟩, ⟨_, rfl, rfl⟩, rfl, rfl⟩, ⟨by decide, by decide⟩, by norm_num, by norm_num⟩

end Verif.Matrix
