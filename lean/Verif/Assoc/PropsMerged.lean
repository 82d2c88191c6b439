import Verif.Assoc.PropsInfo

/-! # Property theorem C258 (two collocates counted as one) -/

set_option linter.unusedSectionVars false

namespace Verif.Assoc
open Verif.Py Verif.Matrix

variable {κ : Type} [LinearOrder κ]

/-- A count times its pmi. -/
noncomputable def share (n r c x : ℝ) : ℝ := x * Real.log (x * n / (r * c))

/-- Sums of terms that are less or equal, with the case of equality. -/
theorem sums_le {α : Type} (l : List α) (g h : α → ℝ) (hl : ∀ a ∈ l, g a ≤ h a) :
    (l.map g).sum ≤ (l.map h).sum ∧ ((l.map g).sum = (l.map h).sum ↔ ∀ a ∈ l, g a = h a) := by
  induction l with
  | nil => simp
  | cons a l ih =>
    obtain ⟨i1, i2⟩ := ih (fun b hb => hl b (by simp [hb]))
    have ha := hl a (by simp)
    simp only [List.map_cons, List.sum_cons, List.mem_cons, forall_eq_or_imp]
    refine ⟨by linarith, fun e => ⟨by linarith, i2.1 (by linarith)⟩, fun ⟨e1, e2⟩ => ?_⟩
    rw [e1, i2.2 e2]

theorem share_part {n r a A x S : ℝ} (hn : 0 < n) (hr : 0 < r) (hS : 0 < S) (hA : 0 < A) (hx : 0 ≤ x) (hxa : x ≤ a) :
    x - a * S / A ≤ share n r a x - x * Real.log (S * n / (r * A)) ∧
    (x - a * S / A = share n r a x - x * Real.log (S * n / (r * A)) ↔ x * A = a * S) := by
  unfold share
  rcases lt_or_eq_of_le hx with hp | hz
  · have ha : 0 < a := lt_of_lt_of_le hp hxa
    have he : 0 < a * S / A := by positivity
    have h1 : x * Real.log (x * n / (r * a)) - x * Real.log (S * n / (r * A)) = x * Real.log (x / (a * S / A)) := by
      rw [← mul_sub, ← Real.log_div (by positivity) (by positivity)]
      congr 2
      field_simp
    rw [h1]
    refine ⟨(log_cell hp he).1, fun h => ?_, fun h => ?_⟩
    · have := (log_cell hp he).2 h
      rw [eq_div_iff hA.ne'] at this
      exact this
    · have : x = a * S / A := by rw [eq_div_iff hA.ne']; exact h
      rw [← this, div_self hp.ne']; simp
  · subst hz
    simp only [zero_mul, sub_zero, zero_sub]
    refine ⟨by have : 0 ≤ a * S / A := by positivity
               linarith, fun h => ?_, fun h => ?_⟩
    · have h1 : a * S / A = 0 := by linarith
      rcases div_eq_zero_iff.1 h1 with h2 | h2
      · exact h2.symm
      · exact absurd h2 hA.ne'
    · rw [← h]; simp

/-- Two counts of one row: counted as one they have at most the sum of the shares. -/
theorem share_add {n r a b x y : ℝ} (hn : 0 < n) (hx : 0 ≤ x) (hy : 0 ≤ y) (hxa : x ≤ a) (hyb : y ≤ b) (hr : x + y ≤ r) :
    share n r (a + b) (x + y) ≤ share n r a x + share n r b y ∧
    (share n r (a + b) (x + y) = share n r a x + share n r b y ↔ x * b = y * a) := by
  rcases lt_or_eq_of_le (add_nonneg hx hy) with hS | hS
  · have hA : 0 < a + b := by linarith
    have hr' : 0 < r := by linarith
    obtain ⟨p1, p2⟩ := share_part (a := a) hn hr' hS hA hx hxa
    obtain ⟨q1, q2⟩ := share_part (a := b) hn hr' hS hA hy hyb
    have hs : x - a * (x + y) / (a + b) + (y - b * (x + y) / (a + b)) = 0 := by field_simp; ring
    have hm : share n r (a + b) (x + y) = x * Real.log ((x + y) * n / (r * (a + b))) + y * Real.log ((x + y) * n / (r * (a + b))) := by
      unfold share; ring
    refine ⟨by rw [hm]; linarith, fun h => ?_, fun h => ?_⟩
    · have := p2.1 (by rw [hm] at h; linarith)
      linarith
    · have e1 := p2.2 (by linarith)
      have e2 := q2.2 (by linarith)
      rw [hm]; linarith
  · have h1 : x = 0 := by linarith
    have h2 : y = 0 := by linarith
    subst h1; subst h2
    simp [share]

/-- What is added up: the shares of all cells. -/
theorem cells_share {m u : Mtx κ ℝ} {R C : κ → ℝ} {N : ℝ}
    (h : ∀ r ∈ m.rows, ∀ c ∈ m.cols, entry u r c = if entry m r c = 0 then 0 else
      (if false then max 0 (Real.log (entry m r c * N / (R r * C c))) else Real.log (entry m r c * N / (R r * C c)))) :
    cells m (fun r c => entry m r c * entry u r c) = cells m (fun r c => share N (R r) (C c) (entry m r c)) := by
  unfold cells
  refine congrArg List.sum (List.map_congr_left (fun r hr => congrArg List.sum (List.map_congr_left (fun c hc => ?_))))
  beta_reduce
  rw [h r hr c hc]
  unfold share
  by_cases h0 : entry m r c = 0
  · simp [h0]
  · simp [h0]

/-- The counts are at most the sums of their row and of their column. -/
theorem le_marginals {m : Mtx κ ℝ} (h0 : ∀ r ∈ m.rows, ∀ c ∈ m.cols, 0 ≤ entry m r c) :
    ∀ r ∈ m.rows, ∀ c ∈ m.cols, 0 ≤ entry m r c ∧ entry m r c ≤ (m.cols.map (fun c => entry m r c)).sum ∧
      entry m r c ≤ (m.rows.map (fun r => entry m r c)).sum := by
  intro r hr c hc
  refine ⟨h0 r hr c hc, List.single_le_sum ?_ _ (List.mem_map.2 ⟨c, hc, rfl⟩), List.single_le_sum ?_ _ (List.mem_map.2 ⟨r, hr, rfl⟩)⟩
  · intro x hx
    obtain ⟨c', hc', rfl⟩ := List.mem_map.1 hx
    exact h0 r hr c' hc'
  · intro x hx
    obtain ⟨r', hr', rfl⟩ := List.mem_map.1 hx
    exact h0 r' hr' c hc

/-- `m'` is `m` with the columns `a` and `b` counted as one column `d`. -/
structure Counted (m m' : Mtx κ ℝ) (a b d : κ) (cs : List κ) : Prop where
  rows : m'.rows = m.rows
  before : m.cols.Perm (a :: b :: cs)
  after : m'.cols.Perm (d :: cs)
  one : ∀ r ∈ m.rows, entry m' r d = entry m r a + entry m r b
  rest : ∀ r ∈ m.rows, ∀ c ∈ cs, entry m' r c = entry m r c

/-- **C258**: counting two collocates as one never makes the mutual information larger, and leaves it as it is exactly if
both are distributed over the words in the same way. -/
theorem C258_merge {m m' : Mtx κ ℝ} (hm : Valid m) (hm' : Valid m') {s s' : Sp ℝ} (hs : m.body = .sp s) (hs' : m'.body = .sp s')
    {nf cf nf' cf' : Dict κ ℝ} (hf : Marginals m nf cf) (hf' : Marginals m' nf' cf') {a b d : κ} {cs : List κ}
    (hk : Counted m m' a b d cs) (h0 : ∀ r ∈ m.rows, ∀ c ∈ m.cols, 0 ≤ entry m r c) (hN : 0 < nf.values.sum) :
    ∃ u u', computePpmi m (some nf) cf false = .ok u ∧ computePpmi m' (some nf') cf' false = .ok u' ∧
      cells m' (fun r c => entry m' r c * entry u' r c) ≤ cells m (fun r c => entry m r c * entry u r c) ∧
      (cells m' (fun r c => entry m' r c * entry u' r c) = cells m (fun r c => entry m r c * entry u r c) ↔
        ∀ r ∈ m.rows, entry m r a * (m.rows.map (fun r' => entry m r' b)).sum = entry m r b * (m.rows.map (fun r' => entry m r' a)).sum) := by
  let R : κ → ℝ := fun r => (m.cols.map (fun c => entry m r c)).sum
  let C : κ → ℝ := fun c => (m.rows.map (fun r => entry m r c)).sum
  let R' : κ → ℝ := fun r => (m'.cols.map (fun c => entry m' r c)).sum
  let C' : κ → ℝ := fun c => (m'.rows.map (fun r => entry m' r c)).sum
  have ha : a ∈ m.cols := hk.before.mem_iff.2 (by simp)
  have hb : b ∈ m.cols := hk.before.mem_iff.2 (by simp)
  have hcs : ∀ c ∈ cs, c ∈ m.cols := fun c hc => hk.before.mem_iff.2 (by simp [hc])
  have h0' : ∀ r ∈ m'.rows, ∀ c ∈ m'.cols, 0 ≤ entry m' r c := by
    intro r hr c hc
    rw [hk.rows] at hr
    rcases List.mem_cons.1 (hk.after.mem_iff.1 hc) with rfl | hc
    · rw [hk.one r hr]; exact add_nonneg (h0 r hr a ha) (h0 r hr b hb)
    · rw [hk.rest r hr c hc]; exact h0 r hr c (hcs c hc)
  have hsplit : ∀ (g : κ → ℝ), (m.cols.map g).sum = g a + g b + (cs.map g).sum := by
    intro g
    rw [(hk.before.map g).sum_eq]; simp [add_assoc]
  have hsplit' : ∀ (g : κ → ℝ), (m'.cols.map g).sum = g d + (cs.map g).sum := by
    intro g
    rw [(hk.after.map g).sum_eq]; simp
  have hR : ∀ r ∈ m.rows, R' r = R r := by
    intro r hr
    show (m'.cols.map (fun c => entry m' r c)).sum = (m.cols.map (fun c => entry m r c)).sum
    rw [hsplit, hsplit', hk.one r hr, List.map_congr_left (fun c hc => hk.rest r hr c hc)]
  have hCd : C' d = C a + C b := by
    show (m'.rows.map (fun r => entry m' r d)).sum = (m.rows.map (fun r => entry m r a)).sum + (m.rows.map (fun r => entry m r b)).sum
    rw [hk.rows, List.map_congr_left (fun r hr => hk.one r hr), ← List.sum_map_add]
  have hCc : ∀ c ∈ cs, C' c = C c := by
    intro c hc
    show (m'.rows.map (fun r => entry m' r c)).sum = (m.rows.map (fun r => entry m r c)).sum
    rw [hk.rows, List.map_congr_left (fun r hr => hk.rest r hr c hc)]
  have hNN : nf'.values.sum = nf.values.sum := by
    rw [hf.all, hf'.all, hk.rows]
    exact congrArg List.sum (List.map_congr_left hR)
  obtain ⟨u, hu, _, _, hcell⟩ := ppmi_cells hm hs R C hf.row hf.col hN (le_marginals h0) false
  obtain ⟨u', hu', _, _, hcell'⟩ := ppmi_cells hm' hs' R' C' hf'.row hf'.col (by rw [hNN]; exact hN) (le_marginals h0') false
  refine ⟨u, u', hu, hu', ?_⟩
  rw [cells_share hcell, cells_share hcell', hNN]
  generalize nf.values.sum = N at hN
  have hle : ∀ r ∈ m.rows, share N (R r) (C a + C b) (entry m r a + entry m r b) ≤ share N (R r) (C a) (entry m r a) + share N (R r) (C b) (entry m r b) ∧
      (share N (R r) (C a + C b) (entry m r a + entry m r b) = share N (R r) (C a) (entry m r a) + share N (R r) (C b) (entry m r b) ↔
        entry m r a * C b = entry m r b * C a) := by
    intro r hr
    refine share_add hN (h0 r hr a ha) (h0 r hr b hb) (le_marginals h0 r hr a ha).2.2 (le_marginals h0 r hr b hb).2.2 ?_
    show _ ≤ (m.cols.map (fun c => entry m r c)).sum
    rw [hsplit]
    have : 0 ≤ (cs.map (fun c => entry m r c)).sum := by
      apply List.sum_nonneg
      intro x hx
      obtain ⟨c, hc, rfl⟩ := List.mem_map.1 hx
      exact h0 r hr c (hcs c hc)
    linarith
  have hrow' : ∀ r ∈ m.rows, (m'.cols.map (fun c => share N (R' r) (C' c) (entry m' r c))).sum =
      share N (R r) (C a + C b) (entry m r a + entry m r b) + (cs.map (fun c => share N (R r) (C c) (entry m r c))).sum := by
    intro r hr
    rw [hsplit', hR r hr, hCd, hk.one r hr]
    congr 2
    refine List.map_congr_left fun c hc => ?_
    rw [hCc c hc, hk.rest r hr c hc]
  have hrow : ∀ r, (m.cols.map (fun c => share N (R r) (C c) (entry m r c))).sum =
      share N (R r) (C a) (entry m r a) + share N (R r) (C b) (entry m r b) + (cs.map (fun c => share N (R r) (C c) (entry m r c))).sum :=
    fun r => hsplit _
  unfold cells
  rw [hk.rows]
  obtain ⟨s1, s2⟩ := sums_le m.rows (fun r => (m'.cols.map (fun c => share N (R' r) (C' c) (entry m' r c))).sum)
    (fun r => (m.cols.map (fun c => share N (R r) (C c) (entry m r c))).sum) (by
      intro r hr
      rw [hrow' r hr, hrow r]
      have := (hle r hr).1
      linarith)
  refine ⟨s1, s2.trans ⟨fun h r hr => ?_, fun h r hr => ?_⟩⟩
  · have e := h r hr
    rw [hrow' r hr, hrow r] at e
    exact (hle r hr).2.1 (by linarith)
  · rw [hrow' r hr, hrow r, (hle r hr).2.2 (h r hr)]

/-- `m'` is `m` with the rows `a` and `b` counted as one row `d`. -/
structure CountedRows (m m' : Mtx κ ℝ) (a b d : κ) (rs : List κ) : Prop where
  cols : m'.cols = m.cols
  before : m.rows.Perm (a :: b :: rs)
  after : m'.rows.Perm (d :: rs)
  one : ∀ c ∈ m.cols, entry m' d c = entry m a c + entry m b c
  rest : ∀ r ∈ rs, ∀ c ∈ m.cols, entry m' r c = entry m r c

theorem share_comm (n r c x : ℝ) : share n r c x = share n c r x := by unfold share; rw [mul_comm r c]

/-- **C258** for rows: the same holds for two words that are counted as one. -/
theorem C258_rows {m m' : Mtx κ ℝ} (hm : Valid m) (hm' : Valid m') {s s' : Sp ℝ} (hs : m.body = .sp s) (hs' : m'.body = .sp s')
    {nf cf nf' cf' : Dict κ ℝ} (hf : Marginals m nf cf) (hf' : Marginals m' nf' cf') {a b d : κ} {rs : List κ}
    (hk : CountedRows m m' a b d rs) (h0 : ∀ r ∈ m.rows, ∀ c ∈ m.cols, 0 ≤ entry m r c) (hN : 0 < nf.values.sum) :
    ∃ u u', computePpmi m (some nf) cf false = .ok u ∧ computePpmi m' (some nf') cf' false = .ok u' ∧
      cells m' (fun r c => entry m' r c * entry u' r c) ≤ cells m (fun r c => entry m r c * entry u r c) ∧
      (cells m' (fun r c => entry m' r c * entry u' r c) = cells m (fun r c => entry m r c * entry u r c) ↔
        ∀ c ∈ m.cols, entry m a c * (m.cols.map (fun c' => entry m b c')).sum = entry m b c * (m.cols.map (fun c' => entry m a c')).sum) := by
  let R : κ → ℝ := fun r => (m.cols.map (fun c => entry m r c)).sum
  let C : κ → ℝ := fun c => (m.rows.map (fun r => entry m r c)).sum
  let R' : κ → ℝ := fun r => (m'.cols.map (fun c => entry m' r c)).sum
  let C' : κ → ℝ := fun c => (m'.rows.map (fun r => entry m' r c)).sum
  have ha : a ∈ m.rows := hk.before.mem_iff.2 (by simp)
  have hb : b ∈ m.rows := hk.before.mem_iff.2 (by simp)
  have hrs : ∀ r ∈ rs, r ∈ m.rows := fun r hr => hk.before.mem_iff.2 (by simp [hr])
  have h0' : ∀ r ∈ m'.rows, ∀ c ∈ m'.cols, 0 ≤ entry m' r c := by
    intro r hr c hc
    rw [hk.cols] at hc
    rcases List.mem_cons.1 (hk.after.mem_iff.1 hr) with rfl | hr
    · rw [hk.one c hc]; exact add_nonneg (h0 a ha c hc) (h0 b hb c hc)
    · rw [hk.rest r hr c hc]; exact h0 r (hrs r hr) c hc
  have hsplit : ∀ (g : κ → ℝ), (m.rows.map g).sum = g a + g b + (rs.map g).sum := by
    intro g
    rw [(hk.before.map g).sum_eq]; simp [add_assoc]
  have hsplit' : ∀ (g : κ → ℝ), (m'.rows.map g).sum = g d + (rs.map g).sum := by
    intro g
    rw [(hk.after.map g).sum_eq]; simp
  have hC : ∀ c ∈ m.cols, C' c = C c := by
    intro c hc
    show (m'.rows.map (fun r => entry m' r c)).sum = (m.rows.map (fun r => entry m r c)).sum
    rw [hsplit, hsplit', hk.one c hc, List.map_congr_left (fun r hr => hk.rest r hr c hc)]
  have hRd : R' d = R a + R b := by
    show (m'.cols.map (fun c => entry m' d c)).sum = (m.cols.map (fun c => entry m a c)).sum + (m.cols.map (fun c => entry m b c)).sum
    rw [hk.cols, List.map_congr_left (fun c hc => hk.one c hc), ← List.sum_map_add]
  have hRr : ∀ r ∈ rs, R' r = R r := by
    intro r hr
    show (m'.cols.map (fun c => entry m' r c)).sum = (m.cols.map (fun c => entry m r c)).sum
    rw [hk.cols, List.map_congr_left (fun c hc => hk.rest r hr c hc)]
  have hNN : nf'.values.sum = nf.values.sum := by
    rw [hf.all, hf'.all, info_swap m.rows m.cols (entry m), info_swap m'.rows m'.cols (entry m'), hk.cols]
    exact congrArg List.sum (List.map_congr_left hC)
  obtain ⟨u, hu, _, _, hcell⟩ := ppmi_cells hm hs R C hf.row hf.col hN (le_marginals h0) false
  obtain ⟨u', hu', _, _, hcell'⟩ := ppmi_cells hm' hs' R' C' hf'.row hf'.col (by rw [hNN]; exact hN) (le_marginals h0') false
  refine ⟨u, u', hu, hu', ?_⟩
  rw [cells_share hcell, cells_share hcell', hNN]
  generalize nf.values.sum = N at hN
  have hle : ∀ c ∈ m.cols, share N (R a + R b) (C c) (entry m a c + entry m b c) ≤ share N (R a) (C c) (entry m a c) + share N (R b) (C c) (entry m b c) ∧
      (share N (R a + R b) (C c) (entry m a c + entry m b c) = share N (R a) (C c) (entry m a c) + share N (R b) (C c) (entry m b c) ↔
        entry m a c * R b = entry m b c * R a) := by
    intro c hc
    rw [share_comm, share_comm N (R a), share_comm N (R b)]
    refine share_add hN (h0 a ha c hc) (h0 b hb c hc) (le_marginals h0 a ha c hc).2.1 (le_marginals h0 b hb c hc).2.1 ?_
    show _ ≤ (m.rows.map (fun r => entry m r c)).sum
    rw [hsplit]
    have : 0 ≤ (rs.map (fun r => entry m r c)).sum := by
      apply List.sum_nonneg
      intro x hx
      obtain ⟨r, hr, rfl⟩ := List.mem_map.1 hx
      exact h0 r (hrs r hr) c hc
    linarith
  have hcol' : ∀ c ∈ m.cols, (m'.rows.map (fun r => share N (R' r) (C' c) (entry m' r c))).sum =
      share N (R a + R b) (C c) (entry m a c + entry m b c) + (rs.map (fun r => share N (R r) (C c) (entry m r c))).sum := by
    intro c hc
    rw [hsplit', hC c hc, hRd, hk.one c hc]
    congr 2
    refine List.map_congr_left fun r hr => ?_
    rw [hRr r hr, hk.rest r hr c hc]
  have hcol : ∀ c, (m.rows.map (fun r => share N (R r) (C c) (entry m r c))).sum =
      share N (R a) (C c) (entry m a c) + share N (R b) (C c) (entry m b c) + (rs.map (fun r => share N (R r) (C c) (entry m r c))).sum :=
    fun c => hsplit _
  unfold cells
  beta_reduce
  rw [info_swap m.rows m.cols (fun r c => share N (R r) (C c) (entry m r c)),
    info_swap m'.rows m'.cols (fun r c => share N (R' r) (C' c) (entry m' r c)), hk.cols]
  obtain ⟨s1, s2⟩ := sums_le m.cols (fun c => (m'.rows.map (fun r => share N (R' r) (C' c) (entry m' r c))).sum)
    (fun c => (m.rows.map (fun r => share N (R r) (C c) (entry m r c))).sum) (by
      intro c hc
      rw [hcol' c hc, hcol c]
      have := (hle c hc).1
      linarith)
  refine ⟨s1, s2.trans ⟨fun h c hc => ?_, fun h c hc => ?_⟩⟩
  · have e := h c hc
    rw [hcol' c hc, hcol c] at e
    exact (hle c hc).2.1 (by linarith)
  · rw [hcol' c hc, hcol c, (hle c hc).2.2 (h c hc)]

/-- The matrix of C257 with both contexts counted as one. -/
def infoOne : Mtx Nat ℝ := ⟨.sp { fmt := .csr, nr := 2, nc := 1, data := [((0, 0), 4), ((1, 0), 2)] }, [1, 2], [7]⟩

theorem infoOne_valid : Valid infoOne := by
  refine ⟨rfl, rfl, by simp [infoOne], by simp [infoOne], ?_⟩
  intro s hs
  simp only [infoOne, Body.sp.injEq] at hs
  subst hs
  exact ⟨by unfold Dict.WF; simp, by simp⟩

theorem infoOne_counted : Counted infoMtx infoOne 5 6 7 [] := by
  obtain ⟨a, b, c, d⟩ := infoMtx_entries
  have e1 : entry infoOne 1 7 = 4 := rfl
  have e2 : entry infoOne 2 7 = 2 := rfl
  have hr : infoMtx.rows = [1, 2] := rfl
  refine ⟨rfl, List.Perm.refl _, List.Perm.refl _, ?_, by simp⟩
  simp [hr, a, b, c, d, e1, e2]; norm_num

theorem infoOne_marginals : Marginals infoOne [(1, 4), (2, 2)] [(7, 6)] := by
  have e1 : entry infoOne 1 7 = 4 := rfl
  have e2 : entry infoOne 2 7 = 2 := rfl
  have hr : infoOne.rows = [1, 2] := rfl
  have hc : infoOne.cols = [7] := rfl
  constructor
  · simp [hr, hc, e1, e2, Dict.get?_cons]
  · simp [hr, hc, e1, e2, Dict.get?_cons]; norm_num
  · simp [hr, hc, e1, e2, Dict.values]

/-- Information is lost here, as the contexts are distributed differently. -/
example : ∃ u u', computePpmi infoMtx (some [(1, 4), (2, 2)]) [(5, 3), (6, 3)] false = .ok u ∧
    computePpmi infoOne (some [(1, 4), (2, 2)]) [(7, 6)] false = .ok u' ∧
    cells infoOne (fun r c => entry infoOne r c * entry u' r c) < cells infoMtx (fun r c => entry infoMtx r c * entry u r c) := by
  obtain ⟨a, b, c, d⟩ := infoMtx_entries
  have hr : infoMtx.rows = [1, 2] := rfl
  have hc : infoMtx.cols = [5, 6] := rfl
  obtain ⟨u, u', h1, h2, h3, h4⟩ := C258_merge infoMtx_valid infoOne_valid rfl rfl infoMtx_marginals infoOne_marginals infoOne_counted
    (by simp [hr, hc, a, b, c, d]) (by simp [Dict.values]; norm_num)
  refine ⟨u, u', h1, h2, lt_of_le_of_ne h3 fun h => ?_⟩
  have := h4.1 h 2 (by simp [hr])
  simp [hr, a, b, c, d] at this

/-- The matrix of C257 with both words counted as one. -/
def infoWord : Mtx Nat ℝ := ⟨.sp { fmt := .csr, nr := 1, nc := 2, data := [((0, 0), 3), ((0, 1), 3)] }, [7], [5, 6]⟩

theorem infoWord_valid : Valid infoWord := by
  refine ⟨rfl, rfl, by simp [infoWord], by simp [infoWord], ?_⟩
  intro s hs
  simp only [infoWord, Body.sp.injEq] at hs
  subst hs
  exact ⟨by unfold Dict.WF; simp, by simp⟩

theorem infoWord_counted : CountedRows infoMtx infoWord 1 2 7 [] := by
  obtain ⟨a, b, c, d⟩ := infoMtx_entries
  have e1 : entry infoWord 7 5 = 3 := rfl
  have e2 : entry infoWord 7 6 = 3 := rfl
  have hc : infoMtx.cols = [5, 6] := rfl
  refine ⟨rfl, List.Perm.refl _, List.Perm.refl _, ?_, by simp⟩
  simp [hc, a, b, c, d, e1, e2]; norm_num

theorem infoWord_marginals : Marginals infoWord [(7, 6)] [(5, 3), (6, 3)] := by
  have e1 : entry infoWord 7 5 = 3 := rfl
  have e2 : entry infoWord 7 6 = 3 := rfl
  have hr : infoWord.rows = [7] := rfl
  have hc : infoWord.cols = [5, 6] := rfl
  constructor
  · simp [hr, hc, e1, e2, Dict.get?_cons]; norm_num
  · simp [hr, hc, e1, e2, Dict.get?_cons]
  · simp [hr, hc, e1, e2, Dict.values]; norm_num

/-- The words are distributed differently, too. -/
example : ∃ u u', computePpmi infoMtx (some [(1, 4), (2, 2)]) [(5, 3), (6, 3)] false = .ok u ∧
    computePpmi infoWord (some [(7, 6)]) [(5, 3), (6, 3)] false = .ok u' ∧
    cells infoWord (fun r c => entry infoWord r c * entry u' r c) < cells infoMtx (fun r c => entry infoMtx r c * entry u r c) := by
  obtain ⟨a, b, c, d⟩ := infoMtx_entries
  have hr : infoMtx.rows = [1, 2] := rfl
  have hc : infoMtx.cols = [5, 6] := rfl
  obtain ⟨u, u', h1, h2, h3, h4⟩ := C258_rows infoMtx_valid infoWord_valid rfl rfl infoMtx_marginals infoWord_marginals infoWord_counted
    (by simp [hr, hc, a, b, c, d]) (by simp [Dict.values]; norm_num)
  refine ⟨u, u', h1, h2, lt_of_le_of_ne h3 fun h => ?_⟩
  have := h4.1 h 5 (by simp [hc])
  simp [hc, a, b, c, d] at this

end Verif.Assoc
