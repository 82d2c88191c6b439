import Verif.Assoc.Weights
import Verif.Assoc.PropsMeasures
import Verif.Matrix.PropsSelect
import Mathlib.Algebra.Order.BigOperators.Group.List
import Mathlib.Algebra.BigOperators.Ring.List

/-! # Property theorems C31 and C34 on association matrices -/

set_option linter.unusedSectionVars false

namespace Verif.Assoc
open Verif.Py Verif.Matrix

variable {κ : Type} [LinearOrder κ]

theorem lift_ok {α : Type} {x : Except Matrix.Err α} {a : α} : lift x = .ok a ↔ x = .ok a := by
  cases x <;> simp [lift]

/-! ### Dicts with mapped values -/

theorem get?_mapVals {α β γ : Type} [DecidableEq α] (d : Dict α β) (g : α → β → γ) (k : α) :
    Dict.get? (d.map (fun e => (e.1, g e.1 e.2))) k = (Dict.get? d k).map (g k) := by
  induction d with
  | nil => rfl
  | cons e d ih =>
    rw [List.map_cons, Dict.get?_cons, Dict.get?_cons, ih]
    by_cases h : e.1 = k
    · subst h; simp
    · simp [h]

theorem keys_mapVals {α β γ : Type} (d : Dict α β) (g : α → β → γ) :
    Dict.keys (d.map (fun e => (e.1, g e.1 e.2))) = Dict.keys d := by
  unfold Dict.keys
  rw [List.map_map]
  rfl

theorem forall2_get? {α β γ : Type} [DecidableEq α] {f : α × β → Except Err (α × γ)}
    (hf : ∀ e r, f e = .ok r → r.1 = e.1) {d : Dict α β} {es : Dict α γ}
    (h : List.Forall₂ (fun a b => f a = .ok b) d es) : Dict.keys es = Dict.keys d ∧
      ∀ k, (Dict.get? d k = none → Dict.get? es k = none) ∧
        ∀ x, Dict.get? d k = some x → ∃ v, f (k, x) = .ok (k, v) ∧ Dict.get? es k = some v := by
  induction h with
  | nil => exact ⟨rfl, fun k => ⟨fun _ => rfl, fun x hx => by cases hx⟩⟩
  | @cons a b d es hab _ ih =>
    have hk := hf a b hab
    refine ⟨by rw [Dict.keys_cons, Dict.keys_cons, hk, ih.1], fun k => ?_⟩
    rw [Dict.get?_cons, Dict.get?_cons, hk]
    by_cases hak : a.1 = k
    · subst hak
      rw [if_pos rfl, if_pos rfl]
      refine ⟨fun h => (nomatch h), fun x hx => ?_⟩
      cases hx
      refine ⟨b.2, ?_, rfl⟩
      have e : f (a.1, a.2) = .ok b := hab
      rw [e, ← hk]
    · rw [if_neg hak, if_neg hak]
      exact ih.2 k

/-! ## C34 -/

theorem mapM_getKey {d : Dict κ ℝ} {l : List κ} {vs : List ℝ} (h : l.mapM (getKey d) = .ok vs) :
    ∀ (i : Nat) (e : κ), l[i]? = some e → ∃ v, Dict.get? d e = some v ∧ vs[i]? = some v := by
  rw [mapM_ok_iff] at h
  induction h with
  | nil => intro i e he; simp at he
  | @cons a b l vs hab _ ih =>
    intro i e he
    cases i with
    | zero =>
      simp only [List.getElem?_cons_zero, Option.some.injEq] at he
      subst he
      unfold getKey at hab
      cases hg : Dict.get? d a with
      | none => rw [hg] at hab; cases hab
      | some v => rw [hg] at hab; cases hab; exact ⟨_, rfl, rfl⟩
    | succ i => simpa using ih i e (by simpa using he)

theorem assocCell_fst {f : Table → Except Err ℝ} {rv cv : List ℝ} {n : ℝ} (e : (Nat × Nat) × ℝ)
    (r : (Nat × Nat) × ℝ) (h : assocCell f rv cv n e = .ok r) : r.1 = e.1 := by
  unfold assocCell at h
  cases h1 : lift (getIdx rv e.1.1) with
  | error _ => rw [h1] at h; cases h
  | ok a =>
    cases h2 : lift (getIdx cv e.1.2) with
    | error _ => rw [h1, h2] at h; cases h
    | ok b =>
      simp only [h1, h2, bind, Except.bind] at h
      cases h3 : f (cellTable e.2 a b n) with
      | error _ => rw [h3] at h; cases h
      | ok v => rw [h3] at h; cases h; rfl

theorem assocCell_ok {f : Table → Except Err ℝ} {rv cv : List ℝ} {n : ℝ} {i j : Nat} {x v r c : ℝ}
    (h : assocCell f rv cv n ((i, j), x) = .ok ((i, j), v)) (hr : rv[i]? = some r) (hc : cv[j]? = some c) :
    f ⟨x, c - x, r - x, n - (r - x) - (c - x) - x⟩ = .ok v := by
  unfold assocCell getIdx at h
  simp only [hr, hc, lift, bind, Except.bind] at h
  cases h3 : f (cellTable x r c n) with
  | error _ => rw [h3] at h; cases h
  | ok w => rw [h3] at h; cases h; exact h3

/-- The total used: the given one, or the larger of the two sums if none (or 0) is given. -/
def IsTotal (nfreq cfreq : Dict κ ℝ) (N : Option ℝ) (n : ℝ) : Prop :=
  (N = some n ∧ n ≠ 0) ∨ ((N = none ∨ N = some 0) ∧ n = max nfreq.values.sum cfreq.values.sum)

theorem totalFreq_eq {nfreq cfreq : Dict κ ℝ} {N : Option ℝ} {n : ℝ} (h : IsTotal nfreq cfreq N n) :
    totalFreq nfreq cfreq N = n := by
  rcases h with ⟨rfl, h0⟩ | ⟨rfl | rfl, rfl⟩
  · simp [totalFreq, h0]
  · rfl
  · simp [totalFreq, freqSum]

theorem bound_of_stored {m : Mtx κ ℝ} {s : Sp ℝ} (hm : Valid m) (hb : m.body = .sp s) {i j : Nat} {x : ℝ}
    (h : s.stored i j = some x) : i < m.rows.length ∧ j < m.cols.length := by
  have hw := hm.sp s hb
  have hnr := hm.nr
  have hnc := hm.nc
  rw [hb] at hnr hnc
  simp only [Body.nr, Body.nc] at hnr hnc
  have := hw.bound (i, j) (by rw [← Dict.get?_isSome_iff]; unfold Sp.stored at h; rw [h]; rfl)
  exact ⟨hnr ▸ this.1, hnc ▸ this.2⟩

theorem storedEntry_none {m : Mtx κ ℝ} {r c : κ} (h : r ∉ m.rows ∨ c ∉ m.cols) : storedEntry m r c = none := by
  unfold storedEntry
  rcases h with h | h
  · rw [idxOf?_none h]; split <;> simp_all
  · rw [idxOf?_none h]; split <;> simp_all

/-- **C34**: whenever `compute_association` returns, the result has the items of the frequency matrix and stores a value
exactly where the frequency matrix stores one: the measure of the contingency table of that frequency, the frequencies
recorded for that row name and that column name, and the total. -/
theorem C34_cells {m u : Mtx κ ℝ} (hm : Valid m) {nfreq cfreq : Dict κ ℝ} {N : Option ℝ} {n : ℝ}
    (hn : IsTotal nfreq cfreq N n) {meas : String} (h : computeAssociation m nfreq cfreq N meas = .ok u) :
    u.rows = m.rows ∧ u.cols = m.cols ∧ Valid u ∧ IsCsr u ∧ ∃ μ, parseMeas meas = some μ ∧
      ∀ r c, (storedEntry m r c = none → storedEntry u r c = none) ∧
        ∀ x, storedEntry m r c = some x → ∃ fr fc v, nfreq.get? r = some fr ∧ cfreq.get? c = some fc ∧
          μ.func ⟨x, fc - x, fr - x, n - (fr - x) - (fc - x) - x⟩ = .ok v ∧ storedEntry u r c = some v := by
  unfold computeAssociation at h
  rw [totalFreq_eq hn] at h
  simp only at h
  cases h1 : m.rows.mapM (getKey nfreq) with
  | error e => rw [h1] at h; cases h
  | ok rv =>
  cases h2 : m.cols.mapM (getKey cfreq) with
  | error e => rw [h1, h2] at h; cases h
  | ok cv =>
  rw [h1, h2] at h
  simp only [lift, bind, Except.bind] at h
  cases hb : m.body with
  | dn d => rw [hb] at h; cases h
  | sp s =>
  rw [hb] at h
  unfold calcAssociation at h
  simp only at h
  cases hp : parseMeas meas with
  | none => rw [hp] at h; cases h
  | some μ =>
  rw [hp] at h
  simp only at h
  cases hes : s.data.mapM (assocCell μ.func rv cv n) with
  | error e => rw [hes] at h; cases h
  | ok es =>
  rw [hes] at h
  simp only [bind, Except.bind] at h
  have hnr := hm.nr
  have hnc := hm.nc
  rw [hb] at hnr hnc
  simp only [Body.nr, Body.nc] at hnr hnc
  have hf2 := forall2_get? (assocCell_fst (f := μ.func) (rv := rv) (cv := cv) (n := n)) ((mapM_ok_iff _ _ _).1 hes)
  rw [mkMtx_sp (s := { fmt := .csr, nr := s.nr, nc := s.nc, data := es }) hnr hnc] at h
  simp only [Except.ok.injEq] at h
  subst h
  have hw := hm.sp s hb
  refine ⟨rfl, rfl, ⟨hnr, hnc, hm.rows, hm.cols, ?_⟩, ⟨_, rfl, rfl⟩, μ, rfl, ?_⟩
  · intro s' hs'
    cases hs'
    exact ⟨by unfold Dict.WF; rw [hf2.1]; exact hw.nodup, by intro p hpm; rw [hf2.1] at hpm; exact hw.bound p hpm⟩
  · intro r c
    by_cases hr : r ∈ m.rows
    · by_cases hc : c ∈ m.cols
      · obtain ⟨i, hi⟩ := getElem?_of_mem' hr
        obtain ⟨j, hj⟩ := getElem?_of_mem' hc
        rw [storedEntry_of hm.rows hm.cols hb hi hj,
          storedEntry_of (m := ⟨.sp { fmt := .csr, nr := s.nr, nc := s.nc, data := es }, m.rows, m.cols⟩) hm.rows hm.cols rfl hi hj]
        refine ⟨(hf2.2 (i, j)).1, fun x hx => ?_⟩
        obtain ⟨v, hv, hv'⟩ := (hf2.2 (i, j)).2 x hx
        obtain ⟨fr, hfr, hrv⟩ := mapM_getKey h1 i r hi
        obtain ⟨fc, hfc, hcv⟩ := mapM_getKey h2 j c hj
        exact ⟨fr, fc, v, hfr, hfc, assocCell_ok hv hrv hcv, hv'⟩
      · rw [storedEntry_none (m := m) (Or.inr hc)]
        exact ⟨fun _ => storedEntry_none (Or.inr hc), fun x hx => (nomatch hx)⟩
    · rw [storedEntry_none (m := m) (Or.inl hr)]
      exact ⟨fun _ => storedEntry_none (Or.inl hr), fun x hx => (nomatch hx)⟩

theorem mapM_getKey_ok {d : Dict κ ℝ} {l : List κ} (h : ∀ e ∈ l, e ∈ d.keys) :
    l.mapM (getKey d) = .ok (l.map (fun e => (d.get? e).getD 0)) := by
  apply mapM_ok_of
  intro e he
  have := (Dict.get?_isSome_iff d e).2 (h e he)
  unfold getKey
  cases hg : Dict.get? d e with
  | none => rw [hg] at this; cases this
  | some v => rfl

/-- **C34**: `compute_association` returns for every sparse frequency matrix whose items have frequencies, every
supported measure, if the measure is defined for every stored cell. -/
theorem C34_defined {m : Mtx κ ℝ} (hm : Valid m) {s : Sp ℝ} (hb : m.body = .sp s) {nfreq cfreq : Dict κ ℝ}
    {N : Option ℝ} {n : ℝ} (hn : IsTotal nfreq cfreq N n) {meas : String} {μ : Meas} (hp : parseMeas meas = some μ)
    (hr : ∀ r ∈ m.rows, r ∈ nfreq.keys) (hc : ∀ c ∈ m.cols, c ∈ cfreq.keys)
    (hd : ∀ r c x fr fc, storedEntry m r c = some x → nfreq.get? r = some fr → cfreq.get? c = some fc →
      ∃ v, μ.func ⟨x, fc - x, fr - x, n - (fr - x) - (fc - x) - x⟩ = .ok v) :
    ∃ u, computeAssociation m nfreq cfreq N meas = .ok u := by
  unfold computeAssociation
  rw [totalFreq_eq hn, mapM_getKey_ok hr, mapM_getKey_ok hc, hb]
  simp only [lift, bind, Except.bind, calcAssociation, hp]
  have hw := hm.sp s hb
  have : ∀ e ∈ s.data, ∃ b, assocCell μ.func (m.rows.map (fun e => (nfreq.get? e).getD 0))
      (m.cols.map (fun e => (cfreq.get? e).getD 0)) n e = .ok b := by
    rintro ⟨⟨i, j⟩, x⟩ he
    have hst : s.stored i j = some x := Dict.get?_of_mem hw.nodup he
    obtain ⟨hi, hj⟩ := bound_of_stored hm hb hst
    have h1 : m.rows[i]? = some m.rows[i] := List.getElem?_eq_getElem hi
    have h2 : m.cols[j]? = some m.cols[j] := List.getElem?_eq_getElem hj
    obtain ⟨fr, hfr⟩ := Option.isSome_iff_exists.1 ((Dict.get?_isSome_iff nfreq _).2 (hr _ (List.getElem_mem hi)))
    obtain ⟨fc, hfc⟩ := Option.isSome_iff_exists.1 ((Dict.get?_isSome_iff cfreq _).2 (hc _ (List.getElem_mem hj)))
    obtain ⟨v, hv⟩ := hd m.rows[i] m.cols[j] x fr fc (by rw [storedEntry_of hm.rows hm.cols hb h1 h2]; exact hst) hfr hfc
    refine ⟨((i, j), v), ?_⟩
    unfold assocCell getIdx
    simp only [List.getElem?_map, h1, h2, Option.map_some, hfr, hfc, Option.getD_some, lift, bind, Except.bind]
    have hv' : μ.func (cellTable x fr fc n) = .ok v := hv
    rw [hv']
  choose! g hg using this
  rw [mapM_ok_of _ g _ hg]
  simp only
  have hnr := hm.nr
  have hnc := hm.nc
  rw [hb] at hnr hnc
  rw [mkMtx_sp (s := { fmt := .csr, nr := s.nr, nc := s.nc, data := _ }) hnr hnc]
  exact ⟨_, rfl⟩

/-- **C34**, refusals: an item without a frequency is a `KeyError`; an unsupported measure is a `NotImplementedError`
(for sparse matrices with known items). -/
theorem C34_refused {m : Mtx κ ℝ} {nfreq cfreq : Dict κ ℝ} (N : Option ℝ) (meas : String) :
    ((∃ r ∈ m.rows, r ∉ nfreq.keys) → computeAssociation m nfreq cfreq N meas = .error (.py .keyError)) ∧
    ((∀ r ∈ m.rows, r ∈ nfreq.keys) → (∃ c ∈ m.cols, c ∉ cfreq.keys) →
      computeAssociation m nfreq cfreq N meas = .error (.py .keyError)) ∧
    ((∀ r ∈ m.rows, r ∈ nfreq.keys) → (∀ c ∈ m.cols, c ∈ cfreq.keys) → (∃ s, m.body = .sp s) →
      meas ∉ ["pmi", "ppmi", "lik", "llik", "chisq", "zscore", "dice", "deltap", "deltapColl", "logratio"] →
      computeAssociation m nfreq cfreq N meas = .error (.py .notImplemented)) := by
  have key : ∀ (d : Dict κ ℝ) (l : List κ), (∃ r ∈ l, r ∉ d.keys) → l.mapM (getKey d) = .error .keyError := by
    intro d l
    induction l with
    | nil => rintro ⟨r, hr, _⟩; cases hr
    | cons a l ih =>
      rintro ⟨r, hr, hnot⟩
      rw [List.mapM_cons]
      cases hg : Dict.get? d a with
      | none => simp [getKey, hg, bind, Except.bind]
      | some v =>
        have hra : r ≠ a := by
          rintro rfl
          exact hnot ((Dict.get?_isSome_iff d r).1 (by rw [hg]; rfl))
        have := ih ⟨r, by simpa [hra] using hr, hnot⟩
        simp [getKey, hg, bind, Except.bind, this]
  refine ⟨fun h => ?_, fun hr h => ?_, fun hr hc hs hmeas => ?_⟩
  · unfold computeAssociation
    rw [key _ _ h]
    rfl
  · unfold computeAssociation
    rw [mapM_getKey_ok hr, key _ _ h]
    rfl
  · obtain ⟨s, hs⟩ := hs
    have hp : parseMeas meas = none := by
      simp only [List.mem_cons, not_or, List.not_mem_nil] at hmeas
      unfold parseMeas
      simp [hmeas]
    unfold computeAssociation
    rw [mapM_getKey_ok hr, mapM_getKey_ok hc, hs]
    simp [lift, bind, Except.bind, calcAssociation, hp]

/-- A 1 x 2 frequency matrix with an explicitly stored entry and an empty cell. -/
def sampleFreq : Mtx Nat ℝ := ⟨.sp ⟨.csr, 1, 2, [((0, 1), 2)]⟩, [7], [3, 4]⟩

theorem sampleFreq_valid : Valid sampleFreq :=
  ⟨rfl, rfl, by simp [sampleFreq], by simp [sampleFreq], by
    intro s hs
    cases hs
    exact ⟨by unfold Dict.WF; decide, by decide⟩⟩

theorem sampleFreq_stored (r c : Nat) (x : ℝ) (h : storedEntry sampleFreq r c = some x) : r = 7 ∧ c = 4 ∧ x = 2 := by
  by_cases hr : r ∈ sampleFreq.rows
  · by_cases hc : c ∈ sampleFreq.cols
    · have hr' : r = 7 := by simpa [sampleFreq] using hr
      have hc' : c = 3 ∨ c = 4 := by simpa [sampleFreq] using hc
      subst hr'
      rcases hc' with rfl | rfl
      · rw [storedEntry_of (s := ⟨.csr, 1, 2, [((0, 1), 2)]⟩) (i := 0) (j := 0) sampleFreq_valid.rows sampleFreq_valid.cols rfl rfl rfl] at h
        simp [Sp.stored, Dict.get?_cons] at h
      · rw [storedEntry_of (s := ⟨.csr, 1, 2, [((0, 1), 2)]⟩) (i := 0) (j := 1) sampleFreq_valid.rows sampleFreq_valid.cols rfl rfl rfl] at h
        simp [Sp.stored, Dict.get?_cons] at h
        exact ⟨rfl, rfl, h.symm⟩
    · rw [storedEntry_none (Or.inr hc)] at h; cases h
  · rw [storedEntry_none (Or.inl hr)] at h; cases h

/-- Non-vacuity for C34. -/
example : ∃ u, computeAssociation sampleFreq [(7, 4)] [(3, 5), (4, 6)] (some 20) "dice" = .ok u := by
  refine C34_defined sampleFreq_valid rfl (n := 20) (Or.inl ⟨rfl, by norm_num⟩) (μ := .dice) (by simp [parseMeas])
    (by simp [sampleFreq, Dict.keys]) (by simp [sampleFreq, Dict.keys]) ?_
  intro r c x fr fc h hfr hfc
  obtain ⟨rfl, rfl, rfl⟩ := sampleFreq_stored r c x h
  simp [Dict.get?_cons] at hfr hfc
  subst hfr; subst hfc
  exact ⟨_, pyDiv_ok (by norm_num)⟩

/-! ## C31 on matrices -/

theorem mapM_congr_mem {α β ε : Type} {f g : α → Except ε β} {l : List α} (h : ∀ a ∈ l, f a = g a) :
    l.mapM f = l.mapM g := by
  induction l with
  | nil => rfl
  | cons a l ih => rw [List.mapM_cons, List.mapM_cons, h a (by simp), ih (fun b hb => h b (by simp [hb]))]

/-- **C31 (partial)** for whole matrices: `compute_ppmi` and `compute_association(meas='ppmi')` return the same matrix if
all frequencies are positive, the row frequencies add up to at least as much as the column frequencies, and no
expected frequency is exactly 1. -/
theorem C31_matrix_partial {m : Mtx κ ℝ} (hm : Valid m) {nfreq cfreq : Dict κ ℝ}
    (hsum : cfreq.values.sum ≤ nfreq.values.sum) (hpos : 0 < nfreq.values.sum)
    (hcell : ∀ r c x fr fc, storedEntry m r c = some x → nfreq.get? r = some fr → cfreq.get? c = some fc →
      0 < x ∧ 0 < fr ∧ 0 < fc ∧ fr * fc / nfreq.values.sum ≠ 1) :
    computePpmi m (some nfreq) cfreq = computeAssociation m nfreq cfreq none "ppmi" := by
  have hn : totalFreq nfreq cfreq none = nfreq.values.sum := max_eq_left hsum
  unfold computePpmi computeAssociation
  rw [hn]
  simp only
  cases h1 : m.rows.mapM (getKey nfreq) with
  | error e => rfl
  | ok rv =>
  cases h2 : m.cols.mapM (getKey cfreq) with
  | error e => rfl
  | ok cv =>
  simp only [lift, bind, Except.bind]
  cases hb : m.body with
  | dn d => rfl
  | sp s =>
  have hp : parseMeas "ppmi" = some .ppmi := by simp [parseMeas]
  simp only [calcAssociation, hp]
  have : s.data.mapM (ppmiEntry true rv cv (freqSum nfreq)) = s.data.mapM (assocCell Meas.ppmi.func rv cv nfreq.values.sum) := by
    apply mapM_congr_mem
    rintro ⟨⟨i, j⟩, x⟩ he
    have hst : s.stored i j = some x := Dict.get?_of_mem (hm.sp s hb).nodup he
    obtain ⟨hi, hj⟩ := bound_of_stored hm hb hst
    have hi' : m.rows[i]? = some m.rows[i] := List.getElem?_eq_getElem hi
    have hj' : m.cols[j]? = some m.cols[j] := List.getElem?_eq_getElem hj
    obtain ⟨fr, hfr, hrv⟩ := mapM_getKey h1 i _ hi'
    obtain ⟨fc, hfc, hcv⟩ := mapM_getKey h2 j _ hj'
    obtain ⟨p1, p2, p3, p4⟩ := hcell _ _ x fr fc (by rw [storedEntry_of hm.rows hm.cols hb hi' hj']; exact hst) hfr hfc
    unfold ppmiEntry assocCell getIdx
    simp only [hrv, hcv, lift, bind, Except.bind]
    have := C31_agree_partial p1 p2 p3 hpos p4
    unfold freqSum
    rw [this]
    rfl
  rw [this]
  simp only [bind, Except.bind]
  cases s.data.mapM (assocCell Meas.ppmi.func rv cv nfreq.values.sum) <;> rfl

/-- **C31 is false** also where no expected frequency is 1: with unequal sums of the frequency vocabularies the two
functions use different totals. -/
theorem C31_false_totals : ∃ (m u v : Mtx Nat ℝ) (nfreq cfreq : Dict Nat ℝ), Valid m ∧
    computePpmi m (some nfreq) cfreq = .ok u ∧ computeAssociation m nfreq cfreq none "ppmi" = .ok v ∧
    storedEntry u 0 0 = some 0 ∧ storedEntry v 0 0 = some (Real.log 2) ∧ (0 : ℝ) < Real.log 2 := by
  refine ⟨⟨.sp ⟨.csr, 1, 1, [((0, 0), 1)]⟩, [0], [0]⟩, ⟨.sp ⟨.csr, 1, 1, [((0, 0), 0)]⟩, [0], [0]⟩,
    ⟨.sp ⟨.csr, 1, 1, [((0, 0), Real.log 2)]⟩, [0], [0]⟩, [(0, 2)], [(0, 2), (1, 6)],
    ⟨rfl, rfl, by simp, by simp, ?_⟩, ?_, ?_, ?_, ?_, Real.log_pos (by norm_num)⟩
  · intro s hs
    cases hs
    exact ⟨by unfold Dict.WF; decide, by decide⟩
  · have h1 : ppmiCell true 1 2 2 2 = .ok 0 := by
      rw [ppmiCell_eq (by norm_num) (by norm_num) (by norm_num) (by norm_num)]
      simp only [if_true]
      rw [max_eq_left]
      exact Real.log_nonpos (by norm_num) (by norm_num)
    simp [computePpmi, freqSum, Dict.values, getKey, Dict.get?_cons, lift, bind, Except.bind, ppmiEntry, getIdx, h1,
      mkMtx, Body.nr, Body.nc, pure, Except.pure]
  · have h1 : calcPpmi (cellTable 1 2 2 8) = .ok (Real.log 2) := by
      rw [← C31_agree_partial (by norm_num) (by norm_num) (by norm_num) (by norm_num) (by norm_num),
        ppmiCell_eq (by norm_num) (by norm_num) (by norm_num) (by norm_num)]
      simp only [if_true]
      rw [show (1 * 8 / (2 * 2) : ℝ) = 2 by norm_num, max_eq_right (Real.log_nonneg (by norm_num))]
    have h2 : totalFreq [(0, 2)] [((0 : Nat), (2 : ℝ)), (1, 6)] none = 8 := by
      simp [totalFreq, freqSum, Dict.values]; norm_num
    simp [computeAssociation, h2, getKey, Dict.get?_cons, lift, bind, Except.bind, calcAssociation, parseMeas, assocCell,
      getIdx, h1, Meas.func, mkMtx, Body.nr, Body.nc, pure, Except.pure]
  · rfl
  · rfl

/-- **C31**: `compute_ppmi` without a row vocabulary fails although its signature has the default `None`. -/
theorem C31_false_default (m : Mtx κ ℝ) (cfreq : Dict κ ℝ) : computePpmi m none cfreq = .error (.py .attributeError) := rfl

end Verif.Assoc
