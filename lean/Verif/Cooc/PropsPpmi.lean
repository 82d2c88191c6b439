import Verif.Cooc.PropsTotals
import Verif.Assoc.PropsTextbook
import Verif.Assoc.PropsWeights

/-! # Property theorem C191 (from a corpus to positive pointwise mutual information) -/

set_option linter.unusedSectionVars false

namespace Verif.Cooc
open Verif.Py Verif.Vocab Verif.Corpus Verif.Window Verif.Engine Verif.Matrix

variable {ℓ μ κ : Type} [LinearOrder κ]

noncomputable section

/-- The values of a sparse array as floats, which the formulas of `/repo/nephosem/specutils/mxcalc.py:189-196` compute
with.  Floats are real numbers here. -/
def spReal (s : Sp Int) : Sp ℝ := ⟨s.fmt, s.nr, s.nc, s.data.map (fun e => (e.1, (e.2 : ℝ)))⟩

/-- The same for a whole matrix. -/
def toReal (m : Mtx κ Int) : Mtx κ ℝ :=
  ⟨match m.body with
    | .sp s => .sp (spReal s)
    | .dn d => .dn ⟨d.nr, d.nc, fun i j => (d.elem i j : ℝ)⟩, m.rows, m.cols⟩

/-- `Vocab(freqMTX.sum(axis=..))`: the frequencies of the vocabulary, `/repo/nephosem/core/matrix.py:866-870`. -/
def realDict (d : Dict κ Int) : Dict κ ℝ := d.map (fun e => (e.1, (e.2 : ℝ)))

/-- How the tutorial (`/repo/docs/tutorials/all-in-one.ipynb:820-822`) and the code
(`/repo/nephosem/models/typetoken.py:867-869`) weight a matrix of counts: `compute_association` with the sums of the rows
and of the columns as frequencies. -/
def weighted (m : Mtx κ Int) (meas : String) : Except Assoc.Err (Mtx κ ℝ) := do
  let nf ← Assoc.lift (rowSums m)
  let cf ← Assoc.lift (colSums m)
  Assoc.computeAssociation (toReal m) (realDict nf) (realDict cf) none meas

/-! ### Specification -/

/-- How often the pair occurs, how often the type with any of the collocates, the collocate with any of the types, and all
together. -/
structure Counts (κ : Type) where
  pair : κ → κ → Nat
  types : List κ
  collocs : List κ

def Counts.row (k : Counts κ) (t : κ) : Nat := (k.collocs.map (fun c => k.pair t c)).sum
def Counts.col (k : Counts κ) (c : κ) : Nat := (k.types.map (fun t => k.pair t c)).sum
def Counts.all (k : Counts κ) : Nat := (k.types.map (fun t => k.row t)).sum

/-- Positive pointwise mutual information of a pair that occurs: `max(0, log (O / E))` with `E = R C / N`. -/
def Counts.ppmi (k : Counts κ) (t c : κ) : ℝ :=
  max 0 (Real.log ((k.pair t c : ℝ) * k.all / (k.row t * k.col c)))

/-! ### Proof -/

theorem stored_spReal (s : Sp Int) (i j : Nat) : (spReal s).stored i j = (s.stored i j).map (fun x : Int => (x : ℝ)) := by
  unfold Sp.stored spReal
  exact Assoc.get?_mapVals s.data (fun _ (x : Int) => (x : ℝ)) (i, j)

theorem get?_realDict (d : Dict κ Int) (k : κ) : Dict.get? (realDict d) k = (Dict.get? d k).map (fun x : Int => (x : ℝ)) :=
  Assoc.get?_mapVals d (fun _ (x : Int) => (x : ℝ)) k

theorem keys_realDict (d : Dict κ Int) : Dict.keys (realDict d) = Dict.keys d :=
  Assoc.keys_mapVals d (fun _ (x : Int) => (x : ℝ))

theorem valid_toReal {m : Mtx κ Int} (hm : Valid m) {s : Sp Int} (hb : m.body = .sp s) : Valid (toReal m) := by
  have hnr := hm.nr
  have hnc := hm.nc
  rw [hb] at hnr hnc
  have hw := hm.sp s hb
  have hbody : (toReal m).body = .sp (spReal s) := by unfold toReal; rw [hb]
  refine ⟨by rw [hbody]; exact hnr, by rw [hbody]; exact hnc, hm.rows, hm.cols, fun s' hs' => ?_⟩
  rw [hbody] at hs'
  cases hs'
  have hk : Dict.keys (spReal s).data = Dict.keys s.data := Assoc.keys_mapVals s.data (fun _ (x : Int) => (x : ℝ))
  refine ⟨?_, fun p hp => hw.bound p (hk ▸ hp)⟩
  have h1 : (Dict.keys s.data).Nodup := hw.nodup
  show (Dict.keys (spReal s).data).Nodup
  rw [hk]
  exact h1

theorem storedEntry_toReal {m : Mtx κ Int} {s : Sp Int} (hb : m.body = .sp s) (t c : κ) :
    storedEntry (toReal m) t c = (storedEntry m t c).map (fun x : Int => (x : ℝ)) := by
  unfold storedEntry
  have hbody : (toReal m).body = .sp (spReal s) := by unfold toReal; rw [hb]
  rw [hbody, hb]
  have hr : (toReal m).rows = m.rows := rfl
  have hc : (toReal m).cols = m.cols := rfl
  rw [hr, hc]
  cases m.rows.idxOf? t with
  | none => rfl
  | some i => cases m.cols.idxOf? c with
    | none => rfl
    | some j => exact stored_spReal s i j

/-- The cells of the table of a pair are not negative. -/
theorem Counts.table (k : Counts κ) {t c : κ} (ht : t ∈ k.types) (hc : c ∈ k.collocs) :
    k.pair t c ≤ k.row t ∧ k.pair t c ≤ k.col c ∧ k.row t + k.col c ≤ k.all + k.pair t c := by
  have h1 : k.pair t c + ((k.collocs.erase c).map (fun c => k.pair t c)).sum = k.row t :=
    List.sum_map_erase (fun c => k.pair t c) hc
  have h2 : k.pair t c + ((k.types.erase t).map (fun t => k.pair t c)).sum = k.col c :=
    List.sum_map_erase (fun t => k.pair t c) ht
  have h3 : k.row t + ((k.types.erase t).map (fun t => k.row t)).sum = k.all :=
    List.sum_map_erase (fun t => k.row t) ht
  have h4 : ((k.types.erase t).map (fun t => k.pair t c)).sum ≤ ((k.types.erase t).map (fun t => k.row t)).sum := by
    refine List.sum_le_sum fun t' _ => ?_
    have : k.pair t' c + ((k.collocs.erase c).map (fun c => k.pair t' c)).sum = k.row t' :=
      List.sum_map_erase (fun c => k.pair t' c) hc
    omega
  omega

theorem sum_cast_real (l : List Nat) : ((l.sum : Nat) : ℝ) = (l.map (fun x : Nat => (x : ℝ))).sum := by
  induction l with
  | nil => simp
  | cons a l ih => simp [ih]

theorem values_sum {d : Dict κ Int} {l : List κ} (hl : l.Nodup) (hk : Dict.keys d = l) {g : κ → Nat}
    (hg : ∀ e ∈ l, Dict.get? d e = some (g e : Int)) : (Dict.values (realDict d)).sum = ((l.map g).sum : Nat) := by
  have : Dict.values (realDict d) = l.map (fun e => (g e : ℝ)) := by
    subst hk
    unfold Dict.values realDict Dict.keys
    rw [List.map_map, List.map_map]
    refine List.map_congr_left fun e he => ?_
    have h1 : Dict.get? d e.1 = some e.2 := Dict.get?_of_mem hl he
    have h2 := hg e.1 (List.mem_map.2 ⟨e, he, rfl⟩)
    rw [h1] at h2
    have h3 := Option.some.inj h2
    simp [h3]
  rw [this, sum_cast_real, List.map_map]
  rfl

/-- The table of a pair. -/
def tableAt (k : Counts κ) (t c : κ) : Assoc.Table :=
  ⟨k.pair t c, k.col c - k.pair t c, k.row t - k.pair t c,
    k.all - (k.row t - k.pair t c) - (k.col c - k.pair t c) - k.pair t c⟩

/-- **C191** for any matrix of counts stored in a sparse array. -/
theorem weighted_counts {m : Mtx κ Int} (hm : Valid m) {s : Sp Int} (hb : m.body = .sp s) {k : Counts κ} (hkr : k.types = m.rows)
    (hkc : k.collocs = m.cols) (he : ∀ t ∈ m.rows, ∀ c ∈ m.cols, entry m t c = k.pair t c) (hpos : 0 < k.all)
    (h1 : m.rows.length ≠ 1) (h2 : m.cols.length ≠ 1) :
    ∃ u, weighted m "ppmi" = .ok u ∧ u.rows = m.rows ∧ u.cols = m.cols ∧ ∀ t ∈ m.rows, ∀ c ∈ m.cols,
      (k.pair t c = 0 → entry u t c = 0) ∧
      (0 < k.pair t c → Assoc.calcPpmi (tableAt k t c) = .ok (entry u t c) ∧ |entry u t c - k.ppmi t c| ≤ Assoc.slip ∧
        (k.row t * k.col c ≠ k.all → entry u t c = k.ppmi t c)) := by
  obtain ⟨nf, hnf, nk, ng⟩ := C53_row_sums_partial hm h1
  obtain ⟨cf, hcf, ck, cg⟩ := C53_col_sums_partial hm h2
  have hrow : ∀ t ∈ m.rows, Dict.get? nf t = some (k.row t : Int) := fun t ht => by
    rw [ng t ht]
    congr 1
    unfold Counts.row
    rw [hkc, cast_sum, List.map_map]
    exact congrArg _ (List.map_congr_left fun c hc => he t ht c hc)
  have hcol : ∀ c ∈ m.cols, Dict.get? cf c = some (k.col c : Int) := fun c hc => by
    rw [cg c hc]
    congr 1
    unfold Counts.col
    rw [hkr, cast_sum, List.map_map]
    exact congrArg _ (List.map_congr_left fun t ht => he t ht c hc)
  have hN : Assoc.IsTotal (realDict nf) (realDict cf) none (k.all : ℝ) := by
    refine Or.inr ⟨Or.inl rfl, ?_⟩
    rw [values_sum hm.rows nk hrow, values_sum hm.cols ck hcol]
    have e1 : (m.rows.map k.row).sum = k.all := by unfold Counts.all; rw [hkr]
    have e2 : (m.cols.map k.col).sum = k.all := by
      unfold Counts.all Counts.col Counts.row
      rw [hkr, hkc]
      exact (sum_swap m.rows m.cols k.pair).symm
    rw [e1, e2, max_self]
  have hval := valid_toReal hm hb
  have hbody : (toReal m).body = .sp (spReal s) := by unfold toReal; rw [hb]
  have hst : ∀ t ∈ m.rows, ∀ c ∈ m.cols, ∀ x, storedEntry (toReal m) t c = some x → x = (k.pair t c : ℝ) := by
    intro t ht c hc x hx
    rw [storedEntry_toReal hb] at hx
    cases hs : storedEntry m t c with
    | none => rw [hs] at hx; cases hx
    | some y =>
      rw [hs] at hx
      have e := he t ht c hc
      rw [entry_eq_stored hb, hs] at e
      simp only [Option.getD_some] at e
      simp only [Option.map_some, Option.some.injEq] at hx
      rw [← hx, e]
      simp
  have hT : ∀ t ∈ m.rows, ∀ c ∈ m.cols, Assoc.NonNeg (tableAt k t c) ∧ Assoc.total (tableAt k t c) = k.all ∧
      Assoc.rowA (tableAt k t c) = k.row t ∧ Assoc.colB (tableAt k t c) = k.col c := by
    intro t ht c hc
    obtain ⟨a1, a2, a3⟩ := k.table (hkr ▸ ht) (hkc ▸ hc)
    have b1 : (k.pair t c : ℝ) ≤ k.row t := by exact_mod_cast a1
    have b2 : (k.pair t c : ℝ) ≤ k.col c := by exact_mod_cast a2
    have b3 : (k.row t : ℝ) + k.col c ≤ k.all + k.pair t c := by exact_mod_cast a3
    have b0 : (0 : ℝ) ≤ k.pair t c := Nat.cast_nonneg _
    unfold tableAt
    refine ⟨⟨b0, ?_, ?_, ?_⟩, ?_, ?_, ?_⟩
    · simp only; linarith
    · simp only; linarith
    · simp only; linarith
    · unfold Assoc.total; simp only; ring
    · unfold Assoc.rowA; simp only; ring
    · unfold Assoc.colB; simp only; ring
  have hall : (0 : ℝ) < k.all := by exact_mod_cast hpos
  obtain ⟨u, hu⟩ := Assoc.C34_defined (meas := "ppmi") (μ := .ppmi) hval hbody hN (by simp [Assoc.parseMeas])
    (fun r hr => by rw [keys_realDict, nk]; exact hr) (fun c hc => by rw [keys_realDict, ck]; exact hc) (by
      intro t c x fr fc hx hfr hfc
      obtain ⟨ht, hc⟩ := storedEntry_names hx
      have ht : t ∈ m.rows := ht
      have hc : c ∈ m.cols := hc
      rw [hst t ht c hc x hx]
      rw [get?_realDict, hrow t ht] at hfr
      rw [get?_realDict, hcol c hc] at hfc
      simp only [Option.map_some, Option.some.injEq, Int.cast_natCast] at hfr hfc
      rw [← hfr, ← hfc]
      obtain ⟨b1, b2, _⟩ := hT t ht c hc
      obtain ⟨p, _, hp⟩ := Assoc.C30_defined b1 (by rw [b2]; exact hall)
      exact ⟨_, hp⟩)
  obtain ⟨u1, u2, u3, ⟨us, ub, _⟩, μ', hμ, ucell⟩ := Assoc.C34_cells hval hN hu
  have hμ' : μ' = .ppmi := by
    have : Assoc.parseMeas "ppmi" = some .ppmi := by simp [Assoc.parseMeas]
    rw [this] at hμ
    exact (Option.some.inj hμ).symm
  subst hμ'
  refine ⟨u, ?_, u1, u2, fun t ht c hc => ?_⟩
  · unfold weighted
    rw [hnf, hcf]
    exact hu
  have hv : ∀ x, storedEntry (toReal m) t c = some x → ∃ v, Assoc.calcPpmi (tableAt k t c) = .ok v ∧ entry u t c = v := by
    intro x hx
    obtain ⟨fr, fc, v, hfr, hfc, hv, hs⟩ := (ucell t c).2 x hx
    rw [get?_realDict, hrow t ht] at hfr
    rw [get?_realDict, hcol c hc] at hfc
    simp only [Option.map_some, Option.some.injEq, Int.cast_natCast] at hfr hfc
    rw [hst t ht c hc x hx, ← hfr, ← hfc] at hv
    exact ⟨v, hv, by rw [entry_eq_stored ub, hs]; rfl⟩
  obtain ⟨b1, b2, b3, b4⟩ := hT t ht c hc
  have htot : 0 < Assoc.total (tableAt k t c) := by rw [b2]; exact hall
  constructor
  · intro h0
    cases hs : storedEntry (toReal m) t c with
    | none => rw [entry_eq_stored ub, (ucell t c).1 hs]; rfl
    | some x =>
      obtain ⟨v, hv1, hv2⟩ := hv x hs
      have hz : (tableAt k t c).o11 = 0 := by unfold tableAt; simp [h0]
      rw [Assoc.C30_ppmi_is_positive_part, Assoc.C64_pmi_zero b1 htot hz] at hv1
      have hlog : Real.log Assoc.tiny ≤ 0 := Real.log_nonpos Assoc.tiny_pos.le Assoc.tiny_lt_one.le
      have hv1 := Except.ok.inj hv1
      rw [hv2, ← hv1, max_eq_left hlog]
  · intro hp
    have hstored : ∃ x, storedEntry (toReal m) t c = some x := by
      rw [storedEntry_toReal hb]
      cases hs : storedEntry m t c with
      | none =>
        have e := he t ht c hc
        rw [entry_eq_stored hb, hs] at e
        simp only [Option.getD_none] at e
        omega
      | some y => exact ⟨_, rfl⟩
    obtain ⟨x, hx⟩ := hstored
    obtain ⟨v, hv1, hv2⟩ := hv x hx
    have h11 : 0 < (tableAt k t c).o11 := by show (0 : ℝ) < (k.pair t c : ℝ); exact_mod_cast hp
    have ho : (tableAt k t c).o11 = k.pair t c := rfl
    obtain ⟨a1, a2, _⟩ := k.table (hkr ▸ ht) (hkc ▸ hc)
    have hr0 : (k.row t : ℝ) ≠ 0 := by exact_mod_cast (by omega : k.row t ≠ 0)
    have hc0 : (k.col c : ℝ) ≠ 0 := by exact_mod_cast (by omega : k.col c ≠ 0)
    have hq : (tableAt k t c).o11 / Assoc.expd (tableAt k t c) (Assoc.rowA (tableAt k t c)) (Assoc.colB (tableAt k t c)) =
        (k.pair t c : ℝ) * k.all / (k.row t * k.col c) := by
      unfold Assoc.expd
      rw [b2, b3, b4, ho]
      field_simp
    obtain ⟨p, hp1, hp2⟩ := Assoc.C64_pmi_near b1 h11
    rw [hq] at hp2
    rw [Assoc.C30_ppmi_is_positive_part, hp1] at hv1
    have hv1' : max 0 p = v := Except.ok.inj hv1
    refine ⟨by rw [Assoc.C30_ppmi_is_positive_part, hp1, hv2, ← hv1']; rfl, ?_⟩
    rw [hv2, ← hv1']
    refine ⟨le_trans (abs_max_sub_max_le_max 0 p 0 _) (by rw [sub_self, abs_zero]; exact max_le Assoc.slip_pos.le hp2), fun hne => ?_⟩
    have hE : Assoc.expd (tableAt k t c) (Assoc.rowA (tableAt k t c)) (Assoc.colB (tableAt k t c)) ≠ 1 := by
      unfold Assoc.expd
      rw [b2, b3, b4]
      intro h
      rw [div_eq_one_iff_eq hall.ne'] at h
      exact hne (by exact_mod_cast h)
    by_cases hO : (tableAt k t c).o11 = Assoc.expd (tableAt k t c) (Assoc.rowA (tableAt k t c)) (Assoc.colB (tableAt k t c))
    · have hq1 : (k.pair t c : ℝ) * k.all / (k.row t * k.col c) = 1 := by
        rw [← hq, ← hO, div_self h11.ne']
      unfold Counts.ppmi
      rw [hq1, Real.log_one, max_self]
      have hcalc : Assoc.calcPpmi (tableAt k t c) = .ok (max 0 p) := by
        rw [Assoc.C30_ppmi_is_positive_part, hp1]; rfl
      have hexp : Assoc.expected (tableAt k t c) ≠ 1 := hE
      have := (Assoc.C30_positive_partial b1 htot hexp hcalc).not
      have hle : ¬ Assoc.expected (tableAt k t c) < (tableAt k t c).o11 := by
        have : Assoc.expected (tableAt k t c) = (tableAt k t c).o11 := hO.symm
        rw [this]; exact lt_irrefl _
      exact le_antisymm (not_lt.1 (this.2 hle)) (le_max_left _ _)
    · have := Assoc.C64_pmi_partial b1 h11 hE hO
      rw [hp1, hq] at this
      rw [Except.ok.inj this]
      rfl

theorem counts_all_pos {k : Counts κ} {t c : κ} (ht : t ∈ k.types) (hc : c ∈ k.collocs) (h : 0 < k.pair t c) : 0 < k.all := by
  obtain ⟨a, b, d⟩ := k.table ht hc
  have e : k.row t + ((k.types.erase t).map (fun t => k.row t)).sum = k.all := List.sum_map_erase (fun t => k.row t) ht
  omega

/-- **C191**, for all files: the counts are those of `C10_exact`, the weights those of the measure for their table. -/
theorem C191_exact {f : Formatter ℓ μ κ} {L R : Nat} {rowv colv : Vocab κ} (hrw : Constructed rowv) (hc : Constructed colv)
    {files : List (List ℓ)} {m : Mtx κ Int} (h : Returns f L R rowv colv files (some m)) (h1 : m.rows.length ≠ 1)
    (h2 : m.cols.length ≠ 1) {k : Counts κ} (hk : k = ⟨totalCount f L R rowv colv files, m.rows, m.cols⟩) :
    ∃ u, weighted m "ppmi" = .ok u ∧ u.rows = m.rows ∧ u.cols = m.cols ∧ ∀ t ∈ m.rows, ∀ c ∈ m.cols,
      (k.pair t c = 0 → entry u t c = 0) ∧
      (0 < k.pair t c → Assoc.calcPpmi (tableAt k t c) = .ok (entry u t c) ∧ |entry u t c - k.ppmi t c| ≤ Assoc.slip ∧
        (k.row t * k.col c ≠ k.all → entry u t c = k.ppmi t c)) := by
  obtain ⟨hi, t0, c0, hpos⟩ := h.isResult hrw hc
  obtain ⟨s, hs, _⟩ := hi.csr
  subst hk
  have he : entry m t0 c0 ≠ 0 := by rw [hi.entry]; exact_mod_cast hpos.ne'
  have hn : t0 ∈ m.rows ∧ c0 ∈ m.cols := by
    rw [entry_eq_stored hs] at he
    cases hst : storedEntry m t0 c0 with
    | none => rw [hst] at he; exact absurd rfl he
    | some y => exact storedEntry_names hst
  exact weighted_counts hi.valid hs rfl rfl (fun t _ c _ => hi.entry t c) (counts_all_pos hn.1 hn.2 hpos) h1 h2

/-- **C191** (partial): a matrix of counts of a corpus weighted with its own sums.  The call succeeds, keeps the names, gives
0 to every pair that was not counted and otherwise positive pointwise mutual information of the counts of the corpus, up to
about `1e-10`; exactly that if the expected frequency is not 1 (`C191_false`).  Missing: matrices with one row or one column,
whose sums fail (`C191_single`). -/
theorem C191_partial {f : Formatter ℓ μ κ} {L R : Nat} {rowv colv : Vocab κ} (hrw : Constructed rowv) (hc : Constructed colv)
    {files : List (List ℓ)} (hseg : ∀ file ∈ files, ∀ xs ∈ segTexts f file, xs.length ≤ 1 ∨ R < xs.length)
    {m : Mtx κ Int} (h : Returns f L R rowv colv files (some m)) (h1 : m.rows.length ≠ 1) (h2 : m.cols.length ≠ 1)
    {k : Counts κ} (hk : k = ⟨fun t c => if Wanted rowv colv t c then (files.map (fun file => coocFile f L R file t c)).sum else 0,
      m.rows, m.cols⟩) :
    ∃ u, weighted m "ppmi" = .ok u ∧ u.rows = m.rows ∧ u.cols = m.cols ∧ ∀ t ∈ m.rows, ∀ c ∈ m.cols,
      (k.pair t c = 0 → entry u t c = 0) ∧
      (0 < k.pair t c → |entry u t c - k.ppmi t c| ≤ Assoc.slip ∧ (k.row t * k.col c ≠ k.all → entry u t c = k.ppmi t c)) := by
  have e : k = ⟨totalCount f L R rowv colv files, m.rows, m.cols⟩ := by
    rw [hk]
    congr 1
    funext t c
    exact (C04_textbook_partial f L R rowv colv files hseg t c).symm
  obtain ⟨u, hu, hr, hcl, hv⟩ := C191_exact hrw hc h h1 h2 e
  exact ⟨u, hu, hr, hcl, fun t ht c hc => ⟨(hv t ht c hc).1, fun hp => ((hv t ht c hc).2 hp).2⟩⟩

/-- **C191**: with one row or one column the recipe fails, because the sums do (see C53). -/
theorem C191_single {m : Mtx κ Int} (hm : Valid m) (h : m.rows.length = 1 ∨ m.cols.length = 1) (meas : String) :
    weighted m meas = .error (.py .typeError) := by
  unfold weighted
  by_cases h1 : m.rows.length = 1
  · rw [(C53_false_single hm).1 h1]; rfl
  · obtain ⟨d, hd, _⟩ := C53_row_sums_partial hm h1
    rw [hd, (C53_false_single hm).2 (h.resolve_left h1)]
    rfl

/-- **C191 is false** where the expected frequency is 1: for twice the segment `1 2` and spans (1, 1), 1 and 2 occur together
twice where one would be expected once, and the weight is not `log 2`. -/
theorem C191_false : ∃ (m : Mtx Nat Int) (u : Mtx Nat ℝ), Returns fmt 1 1 rowv12 Vocab.empty [[1, 2, 10, 1, 2]] (some m) ∧
    weighted m "ppmi" = .ok u ∧
    (⟨totalCount fmt 1 1 rowv12 Vocab.empty [[1, 2, 10, 1, 2]], m.rows, m.cols⟩ : Counts Nat).ppmi 1 2 = Real.log 2 ∧
    Real.log 2 < entry u 1 2 := by
  have hret : Returns fmt 1 1 rowv12 Vocab.empty [[1, 2, 10, 1, 2]]
      (some ⟨.sp ⟨.csr, 2, 2, [((0, 1), 2), ((1, 0), 2)]⟩, [1, 2], [1, 2]⟩) := by
    refine ⟨1, one, _, le_refl _, by intro i; simp [one], rfl, ⟨rfl, ?_⟩, rfl⟩
    intro w hw
    exact Or.inl ⟨_, List.mem_singleton.1 hw⟩
  obtain ⟨u, hu, _, _, hv⟩ := C191_exact ⟨by unfold Dict.WF; decide, rfl⟩ ⟨by unfold Dict.WF; decide, rfl⟩ hret (by decide) (by decide) rfl
  have hcalc := ((hv 1 (by decide) 2 (by decide)).2 (by decide)).1
  have e : totalCount fmt 1 1 rowv12 Vocab.empty [[1, 2, 10, 1, 2]] 1 2 = 2 ∧
    (⟨totalCount fmt 1 1 rowv12 Vocab.empty [[1, 2, 10, 1, 2]], [1, 2], [1, 2]⟩ : Counts Nat).all = 4 ∧
    (⟨totalCount fmt 1 1 rowv12 Vocab.empty [[1, 2, 10, 1, 2]], [1, 2], [1, 2]⟩ : Counts Nat).row 1 = 2 ∧
    (⟨totalCount fmt 1 1 rowv12 Vocab.empty [[1, 2, 10, 1, 2]], [1, 2], [1, 2]⟩ : Counts Nat).col 2 = 2 := by decide
  have hl : (0 : ℝ) ≤ Real.log 2 := Real.log_nonneg (by norm_num)
  have hlt : Real.log 2 < Real.log (2 / Assoc.nearOne) := Real.log_lt_log (by norm_num) (by unfold Assoc.nearOne; norm_num)
  refine ⟨_, u, hret, hu, ?_, ?_⟩
  · unfold Counts.ppmi
    simp only [e.1, e.2.1, e.2.2.1, e.2.2.2]
    norm_num
    exact hl
  · have hq : Assoc.adjustVal (2 / Assoc.nearOne) = 2 / Assoc.nearOne := by
      unfold Assoc.adjustVal Assoc.nearOne
      norm_num
    have h1 : Assoc.adjustVal 1 = Assoc.nearOne := by unfold Assoc.adjustVal; simp
    have h2 : Assoc.nearOne ≠ 0 := by unfold Assoc.nearOne; norm_num
    have h3 : ¬ 2 / Assoc.nearOne ≤ 0 := by unfold Assoc.nearOne; norm_num
    have h5 : ¬ Real.log (2 / Assoc.nearOne) < 0 := by linarith
    have hval : Assoc.calcPpmi ⟨2, 0, 0, 2⟩ = .ok (Real.log (2 / Assoc.nearOne)) := by
      unfold Assoc.calcPpmi Assoc.calcPmi
      norm_num [Assoc.pyDiv, bind, Except.bind, h1, h2, hq, Assoc.pyLog, h3, h5]
    unfold tableAt at hcalc
    simp only [e.1, e.2.1, e.2.2.1, e.2.2.2] at hcalc
    norm_num at hcalc
    rw [hval] at hcalc
    rw [← Except.ok.inj hcalc]
    exact hlt

/-- Two kinds of pairs, one of them twice as often: the hypotheses of `C191_partial`, and weights that are not 0. -/
example : ∃ m, Returns fmt 1 1 rowv12 Vocab.empty [[1, 2, 1, 10, 2, 1]] (some m) ∧ m.rows.length ≠ 1 ∧ m.cols.length ≠ 1 ∧
    (∀ file ∈ [[1, 2, 1, 10, 2, 1]], ∀ xs ∈ segTexts fmt file, xs.length ≤ 1 ∨ 1 < xs.length) ∧
    totalCount fmt 1 1 rowv12 Vocab.empty [[1, 2, 1, 10, 2, 1]] 1 2 = 3 := by
  refine ⟨⟨.sp ⟨.csr, 2, 2, [((0, 1), 3), ((1, 0), 3)]⟩, [1, 2], [1, 2]⟩, ?_, by decide, by decide, by decide, by decide⟩
  refine ⟨1, one, _, le_refl _, by intro i; simp [one], rfl, ⟨rfl, ?_⟩, rfl⟩
  intro w hw
  exact Or.inl ⟨_, List.mem_singleton.1 hw⟩

end
end Verif.Cooc
