import Verif.Assoc.PropsGeometry
import Verif.Assoc.PropsSigns

/-! # Property theorems C231 (words with the same distribution) and C232 (words that share collocates) -/

set_option linter.unusedSectionVars false

namespace Verif.Assoc
open Verif.Py Verif.Matrix

variable {κ : Type} [LinearOrder κ]

theorem entry_stored_csr {u : Mtx κ ℝ} (h : IsCsr u) (r c : κ) : entry u r c = (storedEntry u r c).getD 0 := by
  obtain ⟨s, hb, _⟩ := h
  exact entry_eq_stored hb r c

/-! ## C231 -/

/-- The counts of `a` are `k` times the counts of `b` with every collocate, and `a` is `k` times as frequent as `b`. -/
structure Proportional (m : Mtx κ ℝ) (nfreq : Dict κ ℝ) (a b : κ) (k fb : ℝ) : Prop where
  freqB : nfreq.get? b = some fb
  freqA : nfreq.get? a = some (k * fb)
  counts : ∀ c, storedEntry m a c = (storedEntry m b c).map (k * ·)

/-- The claim: words with proportional counts have the same weights, and their similarity is 1. -/
def C231_claim (m : Mtx κ ℝ) (nfreq cfreq : Dict κ ℝ) (N : Option ℝ) (meas : String) (a b : κ) : Prop :=
  ∀ u, computeAssociation m nfreq cfreq N meas = .ok u → (∀ c, entry u a c = entry u b c) ∧
    ((∃ c, entry u b c ≠ 0) → ∃ s, computeCosine u = .ok s ∧ entry s a b = 1)

theorem cosine_one_of_same {u : Mtx κ ℝ} (hu : Valid u) {a b : κ} (ha : a ∈ u.rows) (hb : b ∈ u.rows) (hs : ∀ c, entry u a c = entry u b c)
    (hne : ∃ c, entry u b c ≠ 0) : ∃ s, computeCosine u = .ok s ∧ entry s a b = 1 := by
  by_cases hab : a = b
  · subst hab
    obtain ⟨c, hc⟩ := hne
    have hcc : c ∈ u.cols := by by_contra h; exact hc (entry_col_absent _ h)
    obtain ⟨s, h1, _, _, _, h3, _⟩ := C63_cosine hu (List.ne_nil_of_mem ha) (List.ne_nil_of_mem hcc)
    exact ⟨s, h1, h3 a ha⟩
  · obtain ⟨s, d, h1, _, h3, _⟩ := C227_one hu ha hb hab (by obtain ⟨c, hc⟩ := hne; exact ⟨c, by rw [hs]; exact hc⟩) hne
    exact ⟨s, h1, h3.2 ⟨1, one_pos, fun c => by rw [hs, one_mul]⟩⟩

/-- **C231 (partial).**  Words with proportional counts have the same `pmi` and the same `ppmi` with every collocate; so their
similarity is 1 and their distance 0.  Missing: collocates whose expected frequency with one of the words is exactly 1
(`C231_false`). -/
theorem C231_partial {m : Mtx κ ℝ} (hm : Valid m) {nfreq cfreq : Dict κ ℝ} {N : Option ℝ} {n k fb : ℝ} (hn : IsTotal nfreq cfreq N n)
    (hpos : 0 < n) (hk : 0 < k) (hfb : 0 < fb) {a b : κ} (ha : a ∈ m.rows) (hb : b ∈ m.rows) (hp : Proportional m nfreq a b k fb)
    (hcell : ∀ c x fc, storedEntry m b c = some x → cfreq.get? c = some fc → 0 < x ∧ 0 < fc ∧ fb * fc / n ≠ 1 ∧ k * fb * fc / n ≠ 1)
    {meas : String} (hmeas : meas = "pmi" ∨ meas = "ppmi") : C231_claim m nfreq cfreq N meas a b := by
  intro u h
  obtain ⟨hr, hc, hu, hcsr, μ, hμ, hcells⟩ := C34_cells hm hn h
  have hsame : ∀ c, entry u a c = entry u b c := by
    intro c
    rw [entry_stored_csr hcsr, entry_stored_csr hcsr]
    cases hx : storedEntry m b c with
    | none =>
      rw [(hcells b c).1 hx, (hcells a c).1 (by rw [hp.counts, hx]; rfl)]
    | some x =>
      obtain ⟨fr, fc, v, e1, e2, hv, hs⟩ := (hcells b c).2 x hx
      obtain ⟨fr', fc', v', e1', e2', hv', hs'⟩ := (hcells a c).2 (k * x) (by rw [hp.counts, hx]; rfl)
      rw [hp.freqB] at e1; rw [hp.freqA] at e1'; rw [e2] at e2'
      cases e1; cases e1'; cases e2'
      obtain ⟨px, pf, n1, n2⟩ := hcell c x fc hx e2
      have hE : 0 < fb * fc / n := by positivity
      have p1 := calcPmi_pair px.le hfb pf hpos
      have p2 := calcPmi_pair (mul_pos hk px).le (mul_pos hk hfb) pf hpos
      have eq : calcPmi (pairTable (k * x) (k * fb) fc n) = calcPmi (pairTable x fb fc n) := by
        have hq : k * x / (k * fb * fc / n) = x / (fb * fc / n) := by field_simp
        rw [p1, p2, adjustVal_of hE.ne' n1, adjustVal_of (by positivity) n2, hq]
      have : v' = v := by
        rcases hmeas with rfl | rfl
        · cases hμ
          have h1 : calcPmi (pairTable x fb fc n) = .ok v := hv
          have h2 : calcPmi (pairTable (k * x) (k * fb) fc n) = .ok v' := hv'
          rw [eq, h1] at h2
          cases h2; rfl
        · cases hμ
          have h1 : calcPpmi (pairTable x fb fc n) = .ok v := hv
          have h2 : calcPpmi (pairTable (k * x) (k * fb) fc n) = .ok v' := hv'
          rw [C30_ppmi_is_positive_part] at h1 h2
          rw [eq, h1] at h2
          cases h2; rfl
      rw [hs, hs', this]
  exact ⟨hsame, cosine_one_of_same hu (hr ▸ ha) (hr ▸ hb) hsame⟩

/-- Two words, one twice as frequent as the other, with two collocates. -/
def twice : Mtx Nat ℝ := ⟨.sp ⟨.csr, 2, 2, [((0, 0), 2), ((0, 1), 3), ((1, 0), 4), ((1, 1), 6)]⟩, [1, 2], [5, 6]⟩

theorem twice_valid : Valid twice :=
  ⟨rfl, rfl, by simp [twice], by simp [twice], by
    intro s hs
    cases hs
    exact ⟨by unfold Dict.WF; decide, by decide⟩⟩

theorem twice_stored : storedEntry twice 1 5 = some 2 ∧ storedEntry twice 1 6 = some 3 ∧ storedEntry twice 2 5 = some 4 ∧
    storedEntry twice 2 6 = some 6 ∧ ∀ r c, c ≠ 5 → c ≠ 6 → storedEntry twice r c = none := by
  refine ⟨by rfl, by rfl, by rfl, by rfl, fun r c h5 h6 => ?_⟩
  have : twice.cols.idxOf? c = none := by
    rw [List.idxOf?_eq_none_iff]
    simp [twice, h5, h6]
  unfold storedEntry
  rw [this]
  split <;> simp_all

theorem twice_proportional : Proportional twice [(1, 4), (2, 8)] 2 1 2 4 := by
  obtain ⟨h1, h2, h3, h4, h5⟩ := twice_stored
  refine ⟨by rfl, by norm_num [Dict.get?, List.lookup], fun c => ?_⟩
  by_cases c5 : c = 5
  · subst c5; rw [h1, h3]; norm_num
  · by_cases c6 : c = 6
    · subst c6; rw [h2, h4]; norm_num
    · rw [h5 _ c c5 c6, h5 _ c c5 c6]; rfl

theorem twice_cases {r c : Nat} {x : ℝ} (h : storedEntry twice r c = some x) :
    (r = 1 ∨ r = 2) ∧ (c = 5 ∨ c = 6) ∧ 0 < x := by
  by_cases hr : r ∈ twice.rows
  · by_cases hc : c ∈ twice.cols
    · have hr' : r = 1 ∨ r = 2 := by simpa [twice] using hr
      have hc' : c = 5 ∨ c = 6 := by simpa [twice] using hc
      refine ⟨hr', hc', ?_⟩
      obtain ⟨h1, h2, h3, h4, _⟩ := twice_stored
      rcases hr' with rfl | rfl <;> rcases hc' with rfl | rfl
      · rw [h1] at h; cases h; norm_num
      · rw [h2] at h; cases h; norm_num
      · rw [h3] at h; cases h; norm_num
      · rw [h4] at h; cases h; norm_num
    · rw [storedEntry_none (Or.inr hc)] at h; cases h
  · rw [storedEntry_none (Or.inl hr)] at h; cases h

theorem twice_pmi (n : ℝ) (hpos : 0 < n) : ∃ u, computeAssociation twice [(1, 4), (2, 8)] [(5, 4), (6, 8)] (some n) "pmi" = .ok u := by
  refine C34_defined twice_valid rfl (n := n) (.inl ⟨rfl, hpos.ne'⟩) (μ := .pmi) (by simp [parseMeas])
    (by simp [twice, Dict.keys]) (by simp [twice, Dict.keys]) ?_
  intro r c x fr fc hx hfr hfc
  obtain ⟨hr, hc, h0⟩ := twice_cases hx
  have h1 : 0 < fr := by
    rcases hr with rfl | rfl <;> simp [Dict.get?_cons] at hfr <;> rw [← hfr] <;> norm_num
  have h2 : 0 < fc := by
    rcases hc with rfl | rfl <;> simp [Dict.get?_cons] at hfc <;> rw [← hfc] <;> norm_num
  exact ⟨_, calcPmi_pair h0.le h1 h2 hpos⟩

/-- **C231 is false**: with 16 words in all, the expected frequency of word 1 with collocate 5 is 1, which is replaced by a number
below 1; so the `pmi` of the two words with this collocate differ. -/
theorem C231_false : Proportional twice [(1, 4), (2, 8)] 2 1 2 4 ∧ ¬ C231_claim twice [(1, 4), (2, 8)] [(5, 4), (6, 8)] (some 16) "pmi" 2 1 := by
  refine ⟨twice_proportional, fun h => ?_⟩
  have hn : IsTotal [((1 : Nat), (4 : ℝ)), (2, 8)] [(5, 4), (6, 8)] (some 16) 16 := .inl ⟨rfl, by norm_num⟩
  obtain ⟨u, hu⟩ := twice_pmi 16 (by norm_num)
  have hs := (h u hu).1 5
  obtain ⟨_, _, _, hcsr, μ, hμ, hcells⟩ := C34_cells twice_valid hn hu
  rw [entry_stored_csr hcsr, entry_stored_csr hcsr] at hs
  obtain ⟨fr, fc, v, e1, e2, hv, hst⟩ := (hcells 1 5).2 2 twice_stored.1
  obtain ⟨fr', fc', v', e1', e2', hv', hst'⟩ := (hcells 2 5).2 4 twice_stored.2.2.1
  simp [Dict.get?_cons] at e1 e2 e1' e2'
  subst e1; subst e2; subst e1'; subst e2'
  simp only [parseMeas, if_true, Option.some.injEq] at hμ
  subst hμ
  have p1 : calcPmi (pairTable 2 4 4 16) = .ok v := hv
  have p2 : calcPmi (pairTable 4 8 4 16) = .ok v' := hv'
  rw [calcPmi_pair (by norm_num) (by norm_num) (by norm_num) (by norm_num)] at p1 p2
  cases p1; cases p2
  rw [hst, hst'] at hs
  simp only [Option.getD_some] at hs
  have a1 : adjustVal (4 * 4 / 16) = nearOne := by unfold adjustVal; rw [if_neg (by norm_num), if_pos (by norm_num)]
  have a2 : adjustVal (8 * 4 / 16) = 2 := by rw [adjustVal_of (by norm_num) (by norm_num)]; norm_num
  have hq := nearOne_pos
  have hq1 := nearOne_lt_one
  have g : (2 : ℝ) < 2 / nearOne := by rw [lt_div_iff₀ hq]; linarith
  have a3 : adjustVal (2 / nearOne) = 2 / nearOne := adjustVal_of (by linarith) (by linarith)
  have a4 : adjustVal (4 / 2) = 2 := by rw [adjustVal_of (by norm_num) (by norm_num)]; norm_num
  rw [a1, a2, a3, a4] at hs
  have := Real.log_lt_log (by norm_num) g
  linarith

/-- `C231_partial` in a corpus of 20: no expected frequency is 1, and the words have the same `pmi` although one is twice as frequent. -/
example : C231_claim twice [(1, 4), (2, 8)] [(5, 4), (6, 8)] (some 20) "pmi" 2 1 ∧
    ∃ u, computeAssociation twice [(1, 4), (2, 8)] [(5, 4), (6, 8)] (some 20) "pmi" = .ok u := by
  refine ⟨C231_partial twice_valid (n := 20) (k := 2) (fb := 4) (.inl ⟨rfl, by norm_num⟩) (by norm_num) (by norm_num) (by norm_num) (by simp [twice])
    (by simp [twice]) twice_proportional ?_ (.inl rfl), twice_pmi 20 (by norm_num)⟩
  intro c x fc hx hfc
  obtain ⟨_, hc, h0⟩ := twice_cases hx
  rcases hc with rfl | rfl <;> simp [Dict.get?_cons] at hfc <;> subst hfc <;> refine ⟨h0, ?_, ?_, ?_⟩ <;> norm_num

/-! ## C232 -/

/-- `c` occurs with `r`, and more often than expected. -/
def Attracts (m : Mtx κ ℝ) (nfreq cfreq : Dict κ ℝ) (n : ℝ) (r c : κ) : Prop :=
  ∃ x fr fc, storedEntry m r c = some x ∧ nfreq.get? r = some fr ∧ cfreq.get? c = some fc ∧ fr * fc / n < x

/-- The claim: the `ppmi` vectors of two words have a similarity above 0 exactly if there is a collocate that both attract. -/
def C232_claim (m : Mtx κ ℝ) (nfreq cfreq : Dict κ ℝ) (N : Option ℝ) (n : ℝ) (a b : κ) : Prop :=
  ∀ u, computeAssociation m nfreq cfreq N "ppmi" = .ok u → ∃ s, computeCosine u = .ok s ∧
    (0 < entry s a b ↔ ∃ c, Attracts m nfreq cfreq n a c ∧ Attracts m nfreq cfreq n b c)

/-- Counts and frequencies fit together, and no expected frequency is exactly 1. -/
structure Fitting (m : Mtx κ ℝ) (nfreq cfreq : Dict κ ℝ) (n : ℝ) (r : κ) : Prop where
  cell : ∀ c x fr fc, storedEntry m r c = some x → nfreq.get? r = some fr → cfreq.get? c = some fc →
    0 < x ∧ x ≤ fr ∧ x ≤ fc ∧ fr < n ∧ fc < n ∧ fr + fc ≤ n + x ∧ fr * fc / n ≠ 1

theorem ppmi_entry {m u : Mtx κ ℝ} (hm : Valid m) {nfreq cfreq : Dict κ ℝ} {N : Option ℝ} {n : ℝ} (hn : IsTotal nfreq cfreq N n)
    (h : computeAssociation m nfreq cfreq N "ppmi" = .ok u) {r : κ} (hf : Fitting m nfreq cfreq n r) (c : κ) :
    0 ≤ entry u r c ∧ (0 < entry u r c ↔ Attracts m nfreq cfreq n r c) := by
  obtain ⟨_, _, _, hcsr, μ, hμ, hcells⟩ := C34_cells hm hn h
  rw [entry_stored_csr hcsr]
  cases hx : storedEntry m r c with
  | none =>
    rw [(hcells r c).1 hx]
    refine ⟨le_refl _, ?_⟩
    constructor
    · intro h0; simp at h0
    · rintro ⟨x, _, _, h1, _⟩; rw [hx] at h1; cases h1
  | some x =>
    obtain ⟨fr, fc, v, e1, e2, hv, hst⟩ := (hcells r c).2 x hx
    obtain ⟨p1, p2, p3, p4, p5, p6, p7⟩ := hf.cell c x fr fc hx e1 e2
    obtain ⟨v', hst', hv'⟩ := C225_partial hm hn (meas := "ppmi") (by simp [signed]) h hx e1 e2 p1 p2 p3 p4 p5 p6 (fun _ => p7) (by simp)
    rw [hst] at hst'; cases hst'
    simp only [parseMeas] at hμ
    rw [if_neg (by decide), if_pos trivial] at hμ
    cases hμ
    rw [hst]
    simp only [Option.getD_some]
    refine ⟨C30_nonneg _ _ hv, ?_⟩
    rw [hv']
    constructor
    · intro h0; exact ⟨x, fr, fc, hx, e1, e2, h0⟩
    · rintro ⟨x', fr', fc', h1, h2, h3, h4⟩
      rw [hx] at h1; rw [e1] at h2; rw [e2] at h3
      cases h1; cases h2; cases h3
      exact h4

/-- **C232 (partial).**  Two words have a similarity above 0 exactly if there is a collocate that both attract.  Missing: collocates with an
expected frequency of exactly 1 (`C232_false`). -/
theorem C232_partial {m : Mtx κ ℝ} (hm : Valid m) {nfreq cfreq : Dict κ ℝ} {N : Option ℝ} {n : ℝ} (hn : IsTotal nfreq cfreq N n)
    {a b : κ} (ha : a ∈ m.rows) (hb : b ∈ m.rows) (hab : a ≠ b) (hcols : m.cols ≠ []) (fa : Fitting m nfreq cfreq n a)
    (fb : Fitting m nfreq cfreq n b) : C232_claim m nfreq cfreq N n a b := by
  intro u h
  obtain ⟨hr, hc, hu, _⟩ := C34_cells hm hn h
  have pa := ppmi_entry hm hn h fa
  have pb := ppmi_entry hm hn h fb
  have ha' : a ∈ u.rows := hr ▸ ha
  have hb' : b ∈ u.rows := hr ▸ hb
  obtain ⟨s, s1, _, _, _, _, _, s5⟩ := C63_cosine hu (List.ne_nil_of_mem ha') (hc ▸ hcols)
  refine ⟨s, s1, ?_⟩
  by_cases na : ∃ c, entry u a c ≠ 0
  · by_cases nb : ∃ c, entry u b c ≠ 0
    · obtain ⟨s', _, t1, _, t2, _, _, _, t3, _⟩ := C227_nonneg hu ha' hb' hab (fun c => (pa c).1) (fun c => (pb c).1) na nb
      rw [s1] at t1; cases t1
      constructor
      · intro h0
        by_contra hno
        have : entry s a b = 0 := t3.2 fun c => by
          by_contra hc'
          push Not at hc'
          exact hno ⟨c, (pa c).2.1 (lt_of_le_of_ne (pa c).1 (Ne.symm hc'.1)), (pb c).2.1 (lt_of_le_of_ne (pb c).1 (Ne.symm hc'.2))⟩
        linarith
      · rintro ⟨c, ca, cb⟩
        refine lt_of_le_of_ne t2 fun h0 => ?_
        rcases t3.1 h0.symm c with e | e
        · have := (pa c).2.2 ca; linarith
        · have := (pb c).2.2 cb; linarith
    · push Not at nb
      have e0 := (s5 a ha' b hb' hab).1 (.inr (dot_self_zero.2 nb))
      rw [e0]
      constructor
      · intro h0; exact absurd h0 (lt_irrefl _)
      · rintro ⟨c, _, cb⟩
        have := (pb c).2.2 cb
        rw [nb c] at this
        exact absurd this (lt_irrefl _)
  · push Not at na
    have e0 := (s5 a ha' b hb' hab).1 (.inl (dot_self_zero.2 na))
    rw [e0]
    constructor
    · intro h0; exact absurd h0 (lt_irrefl _)
    · rintro ⟨c, ca, _⟩
      have := (pa c).2.2 ca
      rw [na c] at this
      exact absurd this (lt_irrefl _)

/-- **C232**, for every measure: words without a common collocate have similarity 0. -/
theorem C232_disjoint {m u : Mtx κ ℝ} (hm : Valid m) {nfreq cfreq : Dict κ ℝ} {N : Option ℝ} {n : ℝ} (hn : IsTotal nfreq cfreq N n)
    {meas : String} (h : computeAssociation m nfreq cfreq N meas = .ok u) {a b : κ} (ha : a ∈ m.rows) (hb : b ∈ m.rows) (hab : a ≠ b)
    (hcols : m.cols ≠ []) (hd : ∀ c, storedEntry m a c = none ∨ storedEntry m b c = none) :
    ∃ s, computeCosine u = .ok s ∧ entry s a b = 0 := by
  obtain ⟨hr, hc, hu, hcsr, _, _, hcells⟩ := C34_cells hm hn h
  have ha' : a ∈ u.rows := hr ▸ ha
  have hb' : b ∈ u.rows := hr ▸ hb
  obtain ⟨s, s1, _, _, _, _, _, s5⟩ := C63_cosine hu (List.ne_nil_of_mem ha') (hc ▸ hcols)
  refine ⟨s, s1, ?_⟩
  have hdot : namedDot u a b = 0 := by
    unfold namedDot
    refine List.sum_eq_zero fun x hx => ?_
    obtain ⟨c, _, rfl⟩ := List.mem_map.1 hx
    rcases hd c with h0 | h0
    · rw [entry_stored_csr hcsr a, (hcells a c).1 h0]; simp
    · rw [entry_stored_csr hcsr b, (hcells b c).1 h0]; simp
  by_cases hz : namedDot u a a = 0 ∨ namedDot u b b = 0
  · exact (s5 a ha' b hb' hab).1 hz
  · push Not at hz
    rw [(s5 a ha' b hb' hab).2 hz.1 hz.2, hdot, zero_div]

/-- Two words that occur once each with a collocate; all frequencies are 2. -/
def once : Mtx Nat ℝ := ⟨.sp ⟨.csr, 2, 1, [((0, 0), 1), ((1, 0), 1)]⟩, [1, 2], [5]⟩

theorem once_valid : Valid once :=
  ⟨rfl, rfl, by simp [once], by simp [once], by
    intro s hs
    cases hs
    exact ⟨by unfold Dict.WF; decide, by decide⟩⟩

theorem once_stored : storedEntry once 1 5 = some 1 ∧ storedEntry once 2 5 = some 1 := ⟨by rfl, by rfl⟩

theorem once_cases {r c : Nat} {x : ℝ} (h : storedEntry once r c = some x) : (r = 1 ∨ r = 2) ∧ c = 5 ∧ x = 1 := by
  by_cases hr : r ∈ once.rows
  · by_cases hc : c ∈ once.cols
    · have hr' : r = 1 ∨ r = 2 := by simpa [once] using hr
      have hc' : c = 5 := by simpa [once] using hc
      refine ⟨hr', hc', ?_⟩
      subst hc'
      rcases hr' with rfl | rfl
      · rw [once_stored.1] at h; cases h; rfl
      · rw [once_stored.2] at h; cases h; rfl
    · rw [storedEntry_none (Or.inr hc)] at h; cases h
  · rw [storedEntry_none (Or.inl hr)] at h; cases h

theorem once_ppmi (n : ℝ) (hpos : 0 < n) : ∃ u, computeAssociation once [(1, 2), (2, 2)] [(5, 2)] (some n) "ppmi" = .ok u := by
  refine C34_defined once_valid rfl (n := n) (.inl ⟨rfl, hpos.ne'⟩) (μ := .ppmi) (by simp [parseMeas])
    (by simp [once, Dict.keys]) (by simp [once, Dict.keys]) ?_
  intro r c x fr fc hx hfr hfc
  obtain ⟨hr, rfl, rfl⟩ := once_cases hx
  have h1 : fr = 2 := by
    rcases hr with rfl | rfl <;> simp [Dict.get?_cons] at hfr <;> rw [← hfr]
  have h2 : fc = 2 := by
    simp [Dict.get?_cons] at hfc; rw [← hfc]
  subst h1; subst h2
  change ∃ v, calcPpmi (pairTable 1 2 2 n) = .ok v
  rw [C30_ppmi_is_positive_part, calcPmi_pair (by norm_num) (by norm_num) (by norm_num) hpos]
  exact ⟨_, rfl⟩

/-- **C232 is false**: in a corpus of 4 both words occur with the collocate as often as expected, once; they attract nothing, but their
similarity is 1. -/
theorem C232_false : ¬ C232_claim once [(1, 2), (2, 2)] [(5, 2)] (some 4) 4 1 2 := by
  intro h
  have hn : IsTotal [((1 : Nat), (2 : ℝ)), (2, 2)] [(5, 2)] (some 4) 4 := .inl ⟨rfl, by norm_num⟩
  obtain ⟨u, hu⟩ := once_ppmi 4 (by norm_num)
  obtain ⟨s, s1, s2⟩ := h u hu
  obtain ⟨hr, hc, huv, hcsr, μ, hμ, hcells⟩ := C34_cells once_valid hn hu
  obtain ⟨fr, fc, v, e1, e2, hv, hst⟩ := (hcells 1 5).2 1 once_stored.1
  obtain ⟨fr', fc', v', e1', e2', hv', hst'⟩ := (hcells 2 5).2 1 once_stored.2
  simp [Dict.get?_cons] at e1 e2 e1' e2'
  subst e1; subst e2; subst e1'; subst e2'
  simp only [parseMeas] at hμ
  rw [if_neg (by decide), if_pos trivial] at hμ
  cases hμ
  have p1 : calcPpmi (pairTable 1 2 2 4) = .ok v := hv
  have hvv : v' = v := by
    have p2 : calcPpmi (pairTable 1 2 2 4) = .ok v' := hv'
    rw [p1] at p2; cases p2; rfl
  have hpos : 0 < v := by
    rw [C30_ppmi_is_positive_part, calcPmi_pair (by norm_num) (by norm_num) (by norm_num) (by norm_num)] at p1
    cases p1
    have a1 : adjustVal (2 * 2 / 4) = nearOne := by unfold adjustVal; rw [if_neg (by norm_num), if_pos (by norm_num)]
    rw [a1]
    have hq := nearOne_pos
    have hq1 := nearOne_lt_one
    have g : (1 : ℝ) < 1 / nearOne := by rw [lt_div_iff₀ hq]; linarith
    rw [adjustVal_of (by linarith) (by linarith)]
    exact lt_max_of_lt_right (Real.log_pos g)
  have same : ∀ c, entry u 1 c = entry u 2 c := by
    intro c
    rw [entry_stored_csr hcsr, entry_stored_csr hcsr]
    by_cases c5 : c = 5
    · subst c5; rw [hst, hst', hvv]
    · have none1 : ∀ r, storedEntry once r c = none := fun r => storedEntry_none (.inr (by simp [once, c5]))
      rw [(hcells 1 c).1 (none1 1), (hcells 2 c).1 (none1 2)]
  obtain ⟨t, t1, t2⟩ := cosine_one_of_same huv (a := 1) (b := 2) (by rw [hr]; simp [once]) (by rw [hr]; simp [once]) same
    ⟨5, by rw [entry_stored_csr hcsr, hst', hvv]; simpa using hpos.ne'⟩
  rw [s1] at t1; cases t1
  obtain ⟨c, ⟨x, fr, fc, q1, q2, q3, q4⟩, _⟩ := s2.1 (by rw [t2]; norm_num)
  obtain ⟨_, rfl, rfl⟩ := once_cases q1
  simp [Dict.get?_cons] at q2 q3
  subst q2; subst q3
  norm_num at q4

/-- `C232_partial` in a corpus of 10: both words attract the collocate, and their similarity is above 0. -/
example : C232_claim once [(1, 2), (2, 2)] [(5, 2)] (some 10) 10 1 2 ∧ (∃ u, computeAssociation once [(1, 2), (2, 2)] [(5, 2)] (some 10) "ppmi" = .ok u) ∧
    Attracts once [(1, 2), (2, 2)] [(5, 2)] 10 1 5 := by
  have hf : ∀ r, Fitting once [(1, 2), (2, 2)] [(5, 2)] 10 r := by
    refine fun r => ⟨fun c x fr fc hx hfr hfc => ?_⟩
    obtain ⟨hr, rfl, rfl⟩ := once_cases hx
    have h1 : fr = 2 := by
      rcases hr with rfl | rfl <;> simp [Dict.get?_cons] at hfr <;> rw [← hfr]
    have h2 : fc = 2 := by
      simp [Dict.get?_cons] at hfc; rw [← hfc]
    subst h1; subst h2
    norm_num
  exact ⟨C232_partial once_valid (.inl ⟨rfl, by norm_num⟩) (by simp [once]) (by simp [once]) (by decide) (by simp [once]) (hf 1) (hf 2),
    once_ppmi 10 (by norm_num), 1, 2, 2, once_stored.1, by rfl, by rfl, by norm_num⟩

end Verif.Assoc
