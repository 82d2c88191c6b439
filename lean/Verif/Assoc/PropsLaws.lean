import Verif.Assoc.PropsMeasures
import Verif.Assoc.PropsWeights
import Verif.Matrix.PropsLaws

/-! # Property theorems C145-C149 (laws of association scores) -/

set_option linter.unusedSectionVars false

namespace Verif.Assoc
open Verif.Py Verif.Matrix Classical

variable {κ : Type} [LinearOrder κ]

/-! ### Specification -/

/-- The same names in the same order, and the same values stored for the same names. -/
def SameStored (u w : Mtx κ ℝ) : Prop :=
  u.rows = w.rows ∧ u.cols = w.cols ∧ ∀ r c, storedEntry u r c = storedEntry w r c

/-- The table of a pair that occurs `x` times, of items that occur `fr` and `fc` times, in `n` tokens. -/
def pairTable (x fr fc n : ℝ) : Table := ⟨x, fc - x, fr - x, n - (fr - x) - (fc - x) - x⟩

/-- The same table of a corpus `k` times as large. -/
def times (k : ℝ) (t : Table) : Table := ⟨k * t.o11, k * t.o21, k * t.o12, k * t.o22⟩

/-- The name of the measure that has the roles of target and collocate exchanged. -/
inductive Mirror : String → String → Prop
  | pmi : Mirror "pmi" "pmi"
  | ppmi : Mirror "ppmi" "ppmi"
  | chisq : Mirror "chisq" "chisq"
  | zscore : Mirror "zscore" "zscore"
  | dice : Mirror "dice" "dice"
  | deltap : Mirror "deltap" "deltapColl"
  | deltapColl : Mirror "deltapColl" "deltap"

/-! ### Lemmas -/

theorem total_exists (nfreq cfreq : Dict κ ℝ) (N : Option ℝ) : ∃ n, IsTotal nfreq cfreq N n := by
  cases N with
  | none => exact ⟨_, Or.inr ⟨Or.inl rfl, rfl⟩⟩
  | some x =>
    by_cases h : x = 0
    · subst h; exact ⟨_, Or.inr ⟨Or.inr rfl, rfl⟩⟩
    · exact ⟨x, Or.inl ⟨rfl, h⟩⟩

theorem isTotal_comm {nfreq cfreq : Dict κ ℝ} {N : Option ℝ} {n : ℝ} (h : IsTotal nfreq cfreq N n) : IsTotal cfreq nfreq N n := by
  rcases h with h | ⟨h1, h2⟩
  · exact Or.inl h
  · exact Or.inr ⟨h1, by rw [h2, max_comm]⟩

/-- What an array without stored entry needs too: the names have frequencies. -/
theorem names_known {m u : Mtx κ ℝ} {nfreq cfreq : Dict κ ℝ} {N : Option ℝ} {meas : String}
    (h : computeAssociation m nfreq cfreq N meas = .ok u) : (∀ r ∈ m.rows, r ∈ nfreq.keys) ∧ ∀ c ∈ m.cols, c ∈ cfreq.keys := by
  unfold computeAssociation at h
  simp only at h
  cases h1 : m.rows.mapM (getKey nfreq) with
  | error e => rw [h1] at h; cases h
  | ok rv =>
  cases h2 : m.cols.mapM (getKey cfreq) with
  | error e => rw [h1, h2] at h; cases h
  | ok cv =>
  constructor
  · intro r hr
    obtain ⟨i, hi⟩ := List.mem_iff_getElem?.1 hr
    obtain ⟨fr, hfr, -⟩ := mapM_getKey h1 i r hi
    exact (Dict.get?_isSome_iff _ _).1 (by rw [hfr]; rfl)
  · intro r hr
    obtain ⟨i, hi⟩ := List.mem_iff_getElem?.1 hr
    obtain ⟨fr, hfr, -⟩ := mapM_getKey h2 i r hi
    exact (Dict.get?_isSome_iff _ _).1 (by rw [hfr]; rfl)

/-- A selection stores what the matrix stores. -/
theorem submatrix_stored {m : Mtx κ ℝ} (hm : Valid m) (hc : IsCompressed m) {row col : Option (List κ)}
    (hr : Plainly row) (hcl : Plainly col) :
    (¬ (Finds m.rows row ∧ Finds m.cols col) ∧ submatrix m row col = .ok none) ∨
    ((Finds m.rows row ∧ Finds m.cols col) ∧ ∃ u, submatrix m row col = .ok (some u) ∧ Valid u ∧ IsCompressed u ∧
      u.rows = kept m.rows row ∧ u.cols = kept m.cols col ∧
      ∀ r c, storedEntry u r c = if r ∈ u.rows ∧ c ∈ u.cols then storedEntry m r c else none) := by
  rcases C23_submatrix_partial hm hc row col with ⟨h, h'⟩ | ⟨h1, h2, u, s, k1, k2, k3, k4, k5, k6, k7, k8, k9, -⟩
  · left
    refine ⟨?_, h'⟩
    rintro ⟨f1, f2⟩
    rcases h with ⟨a, b⟩ | ⟨a, b⟩
    · exact f1 a b
    · exact f2 a b
  · right
    have hv : Valid u := ⟨by rw [k4]; exact k5, by rw [k4]; exact k6, by rw [k2]; exact kept_nodup hm.rows hr,
      by rw [k3]; exact kept_nodup hm.cols hcl, by intro t ht; rw [k4] at ht; cases ht; exact k7⟩
    refine ⟨⟨h1, h2⟩, u, k1, hv, k8, k2, k3, ?_⟩
    intro r c
    split
    · next h =>
      obtain ⟨i, hi⟩ := List.mem_iff_getElem?.1 h.1
      obtain ⟨j, hj⟩ := List.mem_iff_getElem?.1 h.2
      rw [storedEntry_of hv.rows hv.cols k4 hi hj, k9 i j r c hi hj]
    · next h =>
      apply storedEntry_none
      by_contra hx
      push Not at hx
      exact h hx

theorem transpose_stored {m t : Mtx κ ℝ} {s : Sp ℝ} (hb : m.body = .sp s) (h : transpose m = .ok t) (r c : κ) :
    storedEntry t c r = storedEntry m r c := by
  unfold transpose at h
  rw [hb] at h
  obtain ⟨h1, h2, h3⟩ := mkMtx_inv h
  unfold storedEntry
  rw [h1, h2, h3, hb]
  cases m.rows.idxOf? r <;> cases m.cols.idxOf? c <;> simp [stored_transpose]

/-! ## C145 -/

/-- **C145.**  If a sparse frequency matrix can be scored, so can every selection of its rows and columns with the same
frequencies and total, and the scores of the selection are the selection of the scores: a score depends on its own cell, row and
column only. -/
theorem C145_selection {m u : Mtx κ ℝ} (hm : Valid m) (hc : IsCompressed m) {nfreq cfreq : Dict κ ℝ} {N : Option ℝ} {meas : String}
    (h : computeAssociation m nfreq cfreq N meas = .ok u) {row col : Option (List κ)} (hr : Plainly row) (hcl : Plainly col) :
    (submatrix m row col = .ok none ∧ submatrix u row col = .ok none) ∨
    ∃ v w w', submatrix m row col = .ok (some v) ∧ computeAssociation v nfreq cfreq N meas = .ok w ∧
      submatrix u row col = .ok (some w') ∧ SameStored w w' := by
  obtain ⟨n, hn⟩ := total_exists nfreq cfreq N
  obtain ⟨u1, u2, u3, ⟨su, hbu, hfu⟩, μ, hμ, hcell⟩ := C34_cells hm hn h
  have huc : IsCompressed u := ⟨su, hbu, by rw [hfu]; decide⟩
  obtain ⟨kr, kc⟩ := names_known h
  rcases submatrix_stored hm hc hr hcl with ⟨f, e⟩ | ⟨f, v, v1, v2, v3, v4, v5, v6⟩
  · rcases submatrix_stored u3 huc hr hcl with ⟨_, e'⟩ | ⟨g, _⟩
    · exact Or.inl ⟨e, e'⟩
    · rw [u1, u2] at g; exact absurd g f
  · rcases submatrix_stored u3 huc hr hcl with ⟨g, _⟩ | ⟨_, w', l1, l2, l3, l4, l5, l6⟩
    · rw [u1, u2] at g; exact absurd f g
    · obtain ⟨sv, hbv, hfv⟩ := v3
      have hsub : ∀ r c x, storedEntry v r c = some x → storedEntry m r c = some x := by
        intro r c x hx
        rw [v6] at hx
        split at hx
        · exact hx
        · cases hx
      obtain ⟨w, hw⟩ := C34_defined v2 hbv hn hμ
        (fun r hr' => kr r (kept_sub row (v4 ▸ hr'))) (fun c hc' => kc c (kept_sub col (v5 ▸ hc')))
        (fun r c x fr fc hx hfr hfc => by
          obtain ⟨fr', fc', y, a1, a2, a3, -⟩ := (hcell r c).2 x (hsub r c x hx)
          rw [hfr] at a1; rw [hfc] at a2; cases a1; cases a2
          exact ⟨y, a3⟩)
      obtain ⟨w1, w2, -, -, μ', hμ', hcell'⟩ := C34_cells v2 hn hw
      rw [hμ] at hμ'; cases hμ'
      refine Or.inr ⟨v, w, w', v1, hw, l1, by rw [w1, v4, l4, u1], by rw [w2, v5, l5, u2], ?_⟩
      intro r c
      rw [l6]
      have er : w'.rows = v.rows := by rw [l4, v4, u1]
      have ec : w'.cols = v.cols := by rw [l5, v5, u2]
      rw [er, ec]
      have hv := v6 r c
      split
      · next hin =>
        rw [if_pos hin] at hv
        cases hx : storedEntry m r c with
        | none =>
          rw [(hcell r c).1 hx, (hcell' r c).1 (hv.trans hx)]
        | some x =>
          obtain ⟨fr, fc, y, a1, a2, a3, a4⟩ := (hcell r c).2 x hx
          obtain ⟨fr', fc', y', b1, b2, b3, b4⟩ := (hcell' r c).2 x (hv.trans hx)
          rw [a1] at b1; rw [a2] at b2; cases b1; cases b2
          rw [a3] at b3; cases b3
          rw [a4, b4]
      · next hin =>
        rw [if_neg hin] at hv
        exact (hcell' r c).1 hv

/-! ## C146 -/

theorem mirror_func {a b : String} (h : Mirror a b) : ∃ μ μ', parseMeas a = some μ ∧ parseMeas b = some μ' ∧
    ∀ t, μ'.func (swap t) = μ.func t := by
  cases h
  · exact ⟨.pmi, .pmi, by simp [parseMeas], by simp [parseMeas], fun t => (C33_symmetric t).1⟩
  · exact ⟨.ppmi, .ppmi, by simp [parseMeas], by simp [parseMeas], fun t => (C33_symmetric t).2.1⟩
  · exact ⟨.chisq, .chisq, by simp [parseMeas], by simp [parseMeas], fun t => (C33_symmetric t).2.2.1⟩
  · exact ⟨.zscore, .zscore, by simp [parseMeas], by simp [parseMeas], fun t => (C33_symmetric t).2.2.2.1⟩
  · exact ⟨.dice, .dice, by simp [parseMeas], by simp [parseMeas], fun t => (C33_symmetric t).2.2.2.2⟩
  · exact ⟨.deltap, .deltapColl, by simp [parseMeas], by simp [parseMeas], fun t => rfl⟩
  · exact ⟨.deltapColl, .deltap, by simp [parseMeas], by simp [parseMeas], fun t => rfl⟩

/-- **C146.**  Scoring the transposed matrix with the frequencies exchanged gives the transposed scores, for pmi, ppmi, chisq,
zscore and dice; for deltap the scores are those of deltapColl, and vice versa. -/
theorem C146_transpose {m u : Mtx κ ℝ} (hm : Valid m) (hc : IsCompressed m) {nfreq cfreq : Dict κ ℝ} {N : Option ℝ}
    {meas meas' : String} (hmir : Mirror meas meas') (h : computeAssociation m nfreq cfreq N meas = .ok u) :
    ∃ t w t', transpose m = .ok t ∧ computeAssociation t cfreq nfreq N meas' = .ok w ∧ transpose u = .ok t' ∧ SameStored w t' := by
  obtain ⟨n, hn⟩ := total_exists nfreq cfreq N
  obtain ⟨μ, μ', hμ, hμ', hsw⟩ := mirror_func hmir
  obtain ⟨u1, u2, u3, ⟨su, hbu, hfu⟩, μ0, hμ0, hcell⟩ := C34_cells hm hn h
  rw [hμ] at hμ0; cases hμ0
  have huc : IsCompressed u := ⟨su, hbu, by rw [hfu]; decide⟩
  obtain ⟨kr, kc⟩ := names_known h
  obtain ⟨t, ht, t1, t2, t3, -⟩ := C24_transpose_partial hm (notSquare_of_compressed hc)
  obtain ⟨t', ht', t1', t2', t3', -⟩ := C24_transpose_partial u3 (notSquare_of_compressed huc)
  obtain ⟨st, hbt, -⟩ := transpose_compressed hc ht
  obtain ⟨s, hb, -⟩ := hc
  have hst : ∀ r c, storedEntry t c r = storedEntry m r c := transpose_stored hb ht
  have htab : ∀ x fr fc, μ'.func ⟨x, fr - x, fc - x, n - (fc - x) - (fr - x) - x⟩ =
      μ.func ⟨x, fc - x, fr - x, n - (fr - x) - (fc - x) - x⟩ := by
    intro x fr fc
    rw [← hsw]
    unfold swap
    simp only
    rw [show n - (fc - x) - (fr - x) - x = n - (fr - x) - (fc - x) - x by ring]
  obtain ⟨w, hw⟩ := C34_defined t3 hbt (isTotal_comm hn) hμ' (by rw [t1]; exact kc) (by rw [t2]; exact kr)
    (fun c r x fc fr hx hfc hfr => by
      rw [hst] at hx
      obtain ⟨fr', fc', y, a1, a2, a3, -⟩ := (hcell r c).2 x hx
      rw [hfr] at a1; rw [hfc] at a2; cases a1; cases a2
      exact ⟨y, (htab x fr fc).trans a3⟩)
  obtain ⟨w1, w2, -, -, μ1, hμ1, hcell'⟩ := C34_cells t3 (isTotal_comm hn) hw
  rw [hμ'] at hμ1; cases hμ1
  refine ⟨t, w, t', ht, hw, ht', by rw [w1, t1, t1', u2], by rw [w2, t2, t2', u1], ?_⟩
  intro c r
  rw [transpose_stored hbu ht' r c]
  cases hx : storedEntry m r c with
  | none => rw [(hcell r c).1 hx, (hcell' c r).1 ((hst r c).trans hx)]
  | some x =>
    obtain ⟨fr, fc, y, a1, a2, a3, a4⟩ := (hcell r c).2 x hx
    obtain ⟨fc', fr', y', b1, b2, b3, b4⟩ := (hcell' c r).2 x ((hst r c).trans hx)
    rw [a1] at b2; rw [a2] at b1; cases b1; cases b2
    rw [htab, a3] at b3; cases b3
    rw [a4, b4]

/-- Non-vacuity for C145 and C146: the matrix of C34. -/
example : Valid sampleFreq ∧ IsCompressed sampleFreq ∧ Plainly (some [4] : Option (List Nat)) ∧ Mirror "dice" "dice" :=
  ⟨sampleFreq_valid, ⟨_, rfl, by decide⟩, by intro l hl; cases hl; decide, .dice⟩

/-! ## C147 -/

theorem pairTable_sum (x fr fc n : ℝ) : (pairTable x fr fc n).o11 + (pairTable x fr fc n).o21 + (pairTable x fr fc n).o12 +
    (pairTable x fr fc n).o22 = n := by unfold pairTable; simp only; ring

/-- PMI of a pair. -/
theorem calcPmi_pair {x fr fc n : ℝ} (hx : 0 ≤ x) (hr : 0 < fr) (hc : 0 < fc) (hn : 0 < n) :
    calcPmi (pairTable x fr fc n) = .ok (Real.log (adjustVal (x / adjustVal (fr * fc / n)))) := by
  have he : 0 < adjustVal (fr * fc / n) := adjustVal_pos (by positivity)
  unfold calcPmi
  rw [pairTable_sum]
  have e : ((pairTable x fr fc n).o11 + (pairTable x fr fc n).o12) * ((pairTable x fr fc n).o11 + (pairTable x fr fc n).o21) =
      fr * fc := by unfold pairTable; simp only; ring
  rw [e]
  simp only [pyDiv_ok hn.ne', bind, Except.bind]
  rw [pyDiv_ok he.ne']
  simp only
  exact pyLog_ok (adjustVal_pos (div_nonneg hx he.le))

theorem log_adjust_le {q q' : ℝ} (h0 : 0 ≤ q) (h : q ≤ q') : max 0 (Real.log (adjustVal q)) ≤ max 0 (Real.log (adjustVal q')) := by
  by_cases h1 : 1 < q
  · rw [adjustVal_of (by linarith) (ne_of_gt h1), adjustVal_of (by linarith) (by linarith)]
    exact max_le_max (le_refl _) (Real.log_le_log (by linarith) h)
  · have : Real.log (adjustVal q) ≤ 0 := by
      by_contra hc
      exact h1 ((log_adjust_pos h0).1 (not_le.1 hc))
    rw [max_eq_left this]
    exact le_max_left _ _

/-- **C147** (ppmi).  Of two pairs of equally frequent items the more frequent pair has at least the ppmi of the other. -/
theorem C147_ppmi {x x' fr fc n : ℝ} (hx : 0 ≤ x) (hxx : x ≤ x') (hr : 0 < fr) (hc : 0 < fc) (hn : 0 < n) :
    ∃ v v', calcPpmi (pairTable x fr fc n) = .ok v ∧ calcPpmi (pairTable x' fr fc n) = .ok v' ∧ v ≤ v' := by
  have he : 0 < adjustVal (fr * fc / n) := adjustVal_pos (by positivity)
  refine ⟨_, _, by rw [C30_ppmi_is_positive_part, calcPmi_pair hx hr hc hn]; rfl,
    by rw [C30_ppmi_is_positive_part, calcPmi_pair (hx.trans hxx) hr hc hn]; rfl, ?_⟩
  exact log_adjust_le (div_nonneg hx he.le) (by gcongr)

/-- **C147** (z-score, Dice).  The more frequent pair has the higher z-score and Dice coefficient. -/
theorem C147_zscore_dice {x x' fr fc n : ℝ} (hxx : x < x') (hr : 0 < fr) (hc : 0 < fc) (hn : 0 < n) :
    (∃ v v', calcZscore (pairTable x fr fc n) = .ok v ∧ calcZscore (pairTable x' fr fc n) = .ok v' ∧ v < v') ∧
    (∃ v v', calcDice (pairTable x fr fc n) = .ok v ∧ calcDice (pairTable x' fr fc n) = .ok v' ∧ v < v') := by
  have hE : 0 < fr * fc / n := by positivity
  have z : ∀ y, calcZscore (pairTable y fr fc n) = .ok ((y - fr * fc / n) / Real.sqrt (fr * fc / n)) := by
    intro y
    unfold calcZscore
    rw [pairTable_sum]
    have e : ((pairTable y fr fc n).o11 + (pairTable y fr fc n).o21) * ((pairTable y fr fc n).o11 + (pairTable y fr fc n).o12) =
        fr * fc := by unfold pairTable; simp only; ring
    rw [e]
    simp only [pyDiv_ok hn.ne', bind, Except.bind, pySqrt, if_neg (not_lt.2 hE.le)]
    rw [pyDiv_ok (Real.sqrt_pos.2 hE).ne']
    rfl
  have d : ∀ y, calcDice (pairTable y fr fc n) = .ok (2 * y / (fr + fc)) := by
    intro y
    unfold calcDice
    have e : ((pairTable y fr fc n).o11 + (pairTable y fr fc n).o12) + ((pairTable y fr fc n).o11 + (pairTable y fr fc n).o21) =
        fr + fc := by unfold pairTable; simp only; ring
    rw [e, pyDiv_ok (by positivity)]
    rfl
  refine ⟨⟨_, _, z x, z x', ?_⟩, ⟨_, _, d x, d x', ?_⟩⟩
  · have := Real.sqrt_pos.2 hE
    gcongr
  · gcongr

/-- **C147** (ΔP).  The more frequent pair has the higher ΔP in both directions. -/
theorem C147_deltap {x x' fr fc n : ℝ} (hxx : x < x') (hr : 0 < fr) (hrn : fr < n) (hc : 0 < fc) (hcn : fc < n) :
    (∃ v v', calcDeltap (pairTable x fr fc n) = .ok v ∧ calcDeltap (pairTable x' fr fc n) = .ok v' ∧ v < v') ∧
    (∃ v v', calcDeltapColl (pairTable x fr fc n) = .ok v ∧ calcDeltapColl (pairTable x' fr fc n) = .ok v' ∧ v < v') := by
  have d1 : ∀ y, calcDeltap (pairTable y fr fc n) = .ok (y / fr - (fc - y) / (n - fr)) := by
    intro y
    unfold calcDeltap pairTable
    simp only
    rw [show y + (fr - y) = fr by ring, show fc - y + (n - (fr - y) - (fc - y) - y) = n - fr by ring, pyDiv_ok hr.ne',
      pyDiv_ok (by linarith)]
    rfl
  have d2 : ∀ y, calcDeltapColl (pairTable y fr fc n) = .ok (y / fc - (fr - y) / (n - fc)) := by
    intro y
    unfold calcDeltapColl pairTable
    simp only
    rw [show y + (fc - y) = fc by ring, show fr - y + (n - (fr - y) - (fc - y) - y) = n - fc by ring, pyDiv_ok hc.ne',
      pyDiv_ok (by linarith)]
    rfl
  refine ⟨⟨_, _, d1 x, d1 x', ?_⟩, ⟨_, _, d2 x, d2 x', ?_⟩⟩
  · have h1 : x / fr < x' / fr := by gcongr
    have h2 : (fc - x') / (n - fr) < (fc - x) / (n - fr) := by
      have : 0 < n - fr := by linarith
      gcongr
    linarith
  · have h1 : x / fc < x' / fc := by gcongr
    have h2 : (fr - x') / (n - fc) < (fr - x) / (n - fc) := by
      have : 0 < n - fc := by linarith
      gcongr
    linarith

example : ∃ v v', calcDeltap (pairTable 2 4 6 20) = .ok v ∧ calcDeltap (pairTable 3 4 6 20) = .ok v' ∧ v < v' :=
  (C147_deltap (by norm_num) (by norm_num) (by norm_num) (by norm_num) (by norm_num)).1

/-! ## C148 -/

theorem pyDiv_times {k x y : ℝ} (hk : k ≠ 0) : pyDiv (k * x) (k * y) = pyDiv x y := by
  unfold pyDiv
  by_cases h : y = 0
  · rw [if_pos h, if_pos (by rw [h, mul_zero])]
  · rw [if_neg h, if_neg (mul_ne_zero hk h), mul_div_mul_left _ _ hk]

/-- **C148** (Dice, ΔP, log ratio).  A corpus `k` times as large with the same proportions has the same scores, and they are
undefined for the same tables. -/
theorem C148_invariant {k : ℝ} (hk : k ≠ 0) (t : Table) : calcDice (times k t) = calcDice t ∧
    calcDeltap (times k t) = calcDeltap t ∧ calcDeltapColl (times k t) = calcDeltapColl t ∧
    calcLogRatio (times k t) = calcLogRatio t := by
  have a : pyDiv (k * t.o11) (k * t.o11 + k * t.o12) = pyDiv t.o11 (t.o11 + t.o12) := by
    rw [← mul_add, pyDiv_times hk]
  have b : pyDiv (k * t.o21) (k * t.o21 + k * t.o22) = pyDiv t.o21 (t.o21 + t.o22) := by
    rw [← mul_add, pyDiv_times hk]
  have c : pyDiv (k * t.o11) (k * t.o11 + k * t.o21) = pyDiv t.o11 (t.o11 + t.o21) := by
    rw [← mul_add, pyDiv_times hk]
  have d : pyDiv (k * t.o12) (k * t.o12 + k * t.o22) = pyDiv t.o12 (t.o12 + t.o22) := by
    rw [← mul_add, pyDiv_times hk]
  refine ⟨?_, ?_, ?_, ?_⟩
  · unfold calcDice times
    simp only
    rw [show 2 * (k * t.o11) = k * (2 * t.o11) by ring,
      show k * t.o11 + k * t.o12 + (k * t.o11 + k * t.o21) = k * (t.o11 + t.o12 + (t.o11 + t.o21)) by ring, pyDiv_times hk]
  · unfold calcDeltap times
    simp only
    rw [a, b]
  · unfold calcDeltapColl times
    simp only
    rw [c, d]
  · unfold calcLogRatio times
    simp only
    rw [a, b]
    simp only [mul_eq_zero, hk, false_or]

/-- **C148** (chi-square, log-likelihood ratio).  They grow with the size of the corpus, and are undefined for the same tables. -/
theorem C148_linear {k : ℝ} (hk : 0 < k) (t : Table) : calcChisq (times k t) = (calcChisq t).map (k * ·) ∧
    calcLik (times k t) = (calcLik t).map (k * ·) := by
  have hk0 := hk.ne'
  constructor
  · unfold calcChisq times
    simp only
    rw [show (k * t.o11 + k * t.o21 + k * t.o12 + k * t.o22) * (k * t.o11 * (k * t.o22) - k * t.o21 * (k * t.o12)) ^ 2 =
        k ^ 4 * (k * ((t.o11 + t.o21 + t.o12 + t.o22) * (t.o11 * t.o22 - t.o21 * t.o12) ^ 2)) by ring,
      show (k * t.o11 + k * t.o21) * (k * t.o11 + k * t.o12) * (k * t.o21 + k * t.o22) * (k * t.o12 + k * t.o22) =
        k ^ 4 * ((t.o11 + t.o21) * (t.o11 + t.o12) * (t.o21 + t.o22) * (t.o12 + t.o22)) by ring, pyDiv_times (by positivity)]
    unfold pyDiv
    split
    · rfl
    · simp only [Except.map, mul_div_assoc]
  · have a : pyDiv (k * t.o11) (k * t.o11 + k * t.o21) = pyDiv t.o11 (t.o11 + t.o21) := by rw [← mul_add, pyDiv_times hk0]
    have b : pyDiv (k * t.o12) (k * t.o12 + k * t.o22) = pyDiv t.o12 (t.o12 + t.o22) := by rw [← mul_add, pyDiv_times hk0]
    have c : pyDiv (k * t.o11 + k * t.o12) (k * t.o11 + k * t.o12 + k * t.o21 + k * t.o22) =
        pyDiv (t.o11 + t.o12) (t.o11 + t.o12 + t.o21 + t.o22) := by
      rw [← mul_add, ← mul_add, ← mul_add, pyDiv_times hk0]
    unfold calcLik times
    simp only
    rw [a, b, c]
    cases pyDiv t.o11 (t.o11 + t.o21) with
    | error e => rfl
    | ok p1 =>
    cases pyDiv t.o12 (t.o12 + t.o22) with
    | error e => rfl
    | ok p2 =>
    cases pyDiv (t.o11 + t.o12) (t.o11 + t.o12 + t.o21 + t.o22) with
    | error e => rfl
    | ok p =>
    simp only [bind, Except.bind]
    cases pyLog (adjustVal p1) with
    | error e => rfl
    | ok l1 =>
    cases pyLog (1 - adjustVal p1) with
    | error e => rfl
    | ok m1 =>
    cases pyLog (adjustVal p2) with
    | error e => rfl
    | ok l2 =>
    cases pyLog (1 - adjustVal p2) with
    | error e => rfl
    | ok m2 =>
    cases pyLog (adjustVal p) with
    | error e => rfl
    | ok l =>
    cases pyLog (1 - adjustVal p) with
    | error e => rfl
    | ok m =>
      simp only [Except.map]
      congr 1
      ring

/-- **C148** (z-score).  It grows with the square root of the size. -/
theorem C148_zscore {k : ℝ} (hk : 0 < k) {t : Table} {v : ℝ} (h : calcZscore t = .ok v) :
    calcZscore (times k t) = .ok (Real.sqrt k * v) := by
  unfold calcZscore at h ⊢
  simp only [times] at h ⊢
  by_cases hn : t.o11 + t.o21 + t.o12 + t.o22 = 0
  · rw [pyDiv, if_pos hn] at h; cases h
  · rw [pyDiv_ok hn] at h
    rw [show k * t.o11 + k * t.o21 + k * t.o12 + k * t.o22 = k * (t.o11 + t.o21 + t.o12 + t.o22) by ring,
      pyDiv_ok (mul_ne_zero hk.ne' hn),
      show (k * t.o11 + k * t.o21) * (k * t.o11 + k * t.o12) / (k * (t.o11 + t.o21 + t.o12 + t.o22)) =
        k * ((t.o11 + t.o21) * (t.o11 + t.o12) / (t.o11 + t.o21 + t.o12 + t.o22)) by field_simp]
    generalize (t.o11 + t.o21) * (t.o11 + t.o12) / (t.o11 + t.o21 + t.o12 + t.o22) = E at *
    simp only [bind, Except.bind, pySqrt] at h ⊢
    by_cases hE : E < 0
    · rw [if_pos hE] at h; cases h
    · rw [if_neg hE] at h
      rw [if_neg (not_lt.2 (mul_nonneg hk.le (not_lt.1 hE)))]
      simp only at h ⊢
      unfold pyDiv at h ⊢
      by_cases hs : Real.sqrt E = 0
      · rw [if_pos hs] at h; cases h
      · rw [if_neg hs] at h
        cases h
        rw [Real.sqrt_mul hk.le, if_neg (mul_ne_zero (Real.sqrt_pos.2 hk).ne' hs)]
        congr 1
        have h2 : Real.sqrt k * Real.sqrt k = k := Real.mul_self_sqrt hk.le
        have h3 := (Real.sqrt_pos.2 hk).ne'
        field_simp
        rw [pow_two, h2]
        ring

example : calcDice (times 3 (pairTable 1 4 3 10)) = calcDice (pairTable 1 4 3 10) ∧
    ∃ v, calcZscore (pairTable 1 4 3 10) = .ok v ∧ calcZscore (times 3 (pairTable 1 4 3 10)) = .ok (Real.sqrt 3 * v) := by
  obtain ⟨⟨v, -, h, -⟩, -⟩ := C147_zscore_dice (x := 1) (x' := 2) (fr := 4) (fc := 3) (n := 10) (by norm_num) (by norm_num)
    (by norm_num) (by norm_num)
  exact ⟨(C148_invariant (by norm_num) _).1, v, h, C148_zscore (by norm_num) h⟩

/-! ## C149 -/

/-- The claim for PMI: of two pairs of equally frequent items the more frequent pair has the higher PMI, and PMI does not depend on
the size of the corpus. -/
def C149_claim (x x' fr fc n k : ℝ) : Prop :=
  (∃ v v', calcPmi (pairTable x fr fc n) = .ok v ∧ calcPmi (pairTable x' fr fc n) = .ok v' ∧ v < v') ∧
  calcPmi (times k (pairTable x fr fc n)) = calcPmi (pairTable x fr fc n)

theorem times_pair (k x fr fc n : ℝ) : times k (pairTable x fr fc n) = pairTable (k * x) (k * fr) (k * fc) (k * n) := by
  unfold times pairTable
  simp only [Table.mk.injEq]
  refine ⟨trivial, by ring, by ring, by ring⟩

/-- **C149 (partial).**  The full claim is false where an expected frequency is exactly 1, or a quotient is 1 or, being below 1, is
nearer to 1 than the value put in its place (`C149_counterexample`, `C149_counterexample_size`).  It holds otherwise. -/
theorem C149_partial {x x' fr fc n k : ℝ} (hx : 0 < x) (hxx : x < x') (hr : 0 < fr) (hc : 0 < fc) (hn : 0 < n) (hk : 0 < k)
    (h1 : fr * fc / n ≠ 1) (hk1 : k * (fr * fc / n) ≠ 1) (hq : x' / (fr * fc / n) = 1 → x / (fr * fc / n) < 1 - 1 / 10 ^ 10) :
    C149_claim x x' fr fc n k := by
  have hE : 0 < fr * fc / n := by positivity
  have hx' : 0 < x' := hx.trans hxx
  constructor
  · refine ⟨_, _, calcPmi_pair hx.le hr hc hn, calcPmi_pair hx'.le hr hc hn, ?_⟩
    rw [adjustVal_of hE.ne' h1]
    generalize fr * fc / n = E at *
    have hlt : x / E < x' / E := by gcongr
    have hp : 0 < x / E := by positivity
    apply Real.log_lt_log (adjustVal_pos hp.le)
    by_cases c1 : x' / E = 1
    · rw [c1, adjustVal_of hp.ne' (by linarith)]
      unfold adjustVal
      rw [if_neg one_ne_zero, if_pos rfl]
      exact hq c1
    · rw [adjustVal_of (v := x' / E) (by linarith) c1]
      by_cases c2 : x / E = 1
      · rw [c2] at hlt ⊢
        unfold adjustVal
        rw [if_neg one_ne_zero, if_pos rfl]
        exact nearOne_lt_one.trans hlt
      · rw [adjustVal_of hp.ne' c2]
        exact hlt
  · rw [times_pair, calcPmi_pair (by positivity) (by positivity) (by positivity) (by positivity), calcPmi_pair hx.le hr hc hn,
      show k * fr * (k * fc) / (k * n) = k * (fr * fc / n) by field_simp]
    rw [adjustVal_of hE.ne' h1, adjustVal_of (mul_pos hk hE).ne' hk1, mul_div_mul_left _ _ hk.ne']

example : C149_claim 2 3 4 6 20 5 := by
  refine C149_partial ?_ ?_ ?_ ?_ ?_ ?_ ?_ ?_ ?_ <;> norm_num

/-- **C149 is false**: the quotient 1 is replaced by a smaller number than the quotient of a rarer pair. -/
theorem C149_counterexample : ∃ x x' fr fc n v v' : ℝ, x < x' ∧ NonNeg (pairTable x fr fc n) ∧ NonNeg (pairTable x' fr fc n) ∧
    calcPmi (pairTable x fr fc n) = .ok v ∧ calcPmi (pairTable x' fr fc n) = .ok v' ∧ v' < v := by
  refine ⟨10 ^ 12 - 1, 10 ^ 12, 2 * 10 ^ 12, 2 * 10 ^ 12, 4 * 10 ^ 12, _, _, by norm_num,
    ⟨by norm_num [pairTable], by norm_num [pairTable], by norm_num [pairTable], by norm_num [pairTable]⟩,
    ⟨by norm_num [pairTable], by norm_num [pairTable], by norm_num [pairTable], by norm_num [pairTable]⟩,
    calcPmi_pair (by norm_num) (by norm_num) (by norm_num) (by norm_num),
    calcPmi_pair (by norm_num) (by norm_num) (by norm_num) (by norm_num), ?_⟩
  have e : (2 * 10 ^ 12 * (2 * 10 ^ 12) / (4 * 10 ^ 12) : ℝ) = 10 ^ 12 := by norm_num
  rw [e, adjustVal_of (v := (10 : ℝ) ^ 12) (by norm_num) (by norm_num)]
  have e1 : ((10 : ℝ) ^ 12 / 10 ^ 12) = 1 := by norm_num
  rw [e1]
  have e2 : adjustVal 1 = nearOne := by unfold adjustVal; rw [if_neg one_ne_zero, if_pos rfl]
  rw [e2, adjustVal_of (by norm_num) (by norm_num)]
  exact Real.log_lt_log nearOne_pos (by unfold nearOne; norm_num)

/-- **C149 is false** also for the size of the corpus: with an expected frequency of 1 the PMI of a pair that occurs twice is not that
of the same proportions in a corpus twice as large. -/
theorem C149_counterexample_size : ∃ (t : Table) (v v' : ℝ), NonNeg t ∧ calcPmi t = .ok v ∧ calcPmi (times 2 t) = .ok v' ∧ v' < v := by
  refine ⟨pairTable 2 4 4 16, _, _, ⟨by norm_num [pairTable], by norm_num [pairTable], by norm_num [pairTable], by norm_num [pairTable]⟩,
    calcPmi_pair (by norm_num) (by norm_num) (by norm_num) (by norm_num),
    by rw [times_pair]; exact calcPmi_pair (by norm_num) (by norm_num) (by norm_num) (by norm_num), ?_⟩
  have e1 : adjustVal (4 * 4 / 16) = nearOne := by unfold adjustVal; rw [if_neg (by norm_num), if_pos (by norm_num)]
  have e2 : adjustVal (2 * 4 * (2 * 4) / (2 * 16)) = 2 := by rw [adjustVal_of] <;> norm_num
  rw [e1, e2]
  have e3 : adjustVal (2 * 2 / 2) = 2 := by rw [adjustVal_of] <;> norm_num
  have e4 : adjustVal (2 / nearOne) = 2 / nearOne := by rw [adjustVal_of] <;> unfold nearOne <;> norm_num
  rw [e3, e4]
  exact Real.log_lt_log (by norm_num) (by unfold nearOne; norm_num)

end Verif.Assoc
