import Verif.Cooc.PropsSentences
import Verif.Cooc.PropsPpmi
import Verif.Flow.PropsColloc
import Verif.Assoc.PropsLaws

/-! # Property theorem C217 (what is repeated counts as often) -/

set_option linter.unusedSectionVars false

namespace Verif.Cooc
open Verif.Py Verif.Vocab Verif.Corpus Verif.Window Verif.Engine Verif.Matrix

variable {ℓ μ ℓ' μ' κ : Type} [LinearOrder κ]

noncomputable section

/-! ### Specification -/

/-- How the score `y` of a pair in a corpus of `k` times the size compares with its score `x`. -/
structure ScoreLaw (meas : String) (k x y : ℝ) : Prop where
  same : meas ∈ ["dice", "deltap", "deltapColl", "logratio"] → y = x
  linear : meas ∈ ["chisq", "lik", "llik"] → y = k * x
  root : meas = "zscore" → y = Real.sqrt k * x
  near : meas ∈ ["pmi", "ppmi"] → |y - x| ≤ 3 / 10 ^ 10

/-! ### Matrices of counts store no zero -/

/-- No value that is stored is zero. -/
def NoZero (m : Mtx κ Int) : Prop := ∀ t c, storedEntry m t c ≠ some 0

theorem mergeTwo_noZero {m t u : Mtx κ Int} (h : mergeTwo m t = .ok u) : NoZero u := by
  have key : ∀ (a b s : Sp Int) (rows cols : List κ), a.add b = .ok s → mkMtx (.sp s) rows cols = .ok u → NoZero u := by
    intro a b s rows cols hs hu r c h0
    obtain ⟨hb, -, -⟩ := mkMtx_inv hu
    unfold storedEntry at h0
    rw [hb] at h0
    split at h0
    · next s' i j e _ _ =>
      cases e
      have hmem := Dict.mem_of_get? h0
      unfold Sp.add at hs
      split at hs
      · cases hs
        simp only [List.mem_filter] at hmem
        simp at hmem
      · cases hs
    · cases h0
  have dense : ∀ (d : Dn Int) (rows cols : List κ), mkMtx (.dn d) rows cols = .ok u → NoZero u := by
    intro d rows cols hu r c h0
    obtain ⟨hb, -, -⟩ := mkMtx_inv hu
    unfold storedEntry at h0
    rw [hb] at h0
    cases h0
  unfold mergeTwo at h
  split at h
  · split at h
    · next a b _ _ =>
      cases hs : a.add b with
      | error e => rw [hs] at h; cases h
      | ok s => rw [hs] at h; exact key a b s _ _ hs h
    · exact dense _ _ _ h
    · cases h
  · split at h
    · cases h
    · simp only at h
      split at h
      · next a b _ _ =>
        cases h1 : transformIndices a m.cols (sortedUnion m.cols t.cols) with
        | error e => rw [h1] at h; cases h
        | ok a' =>
        cases h2 : transformIndices b t.cols (sortedUnion m.cols t.cols) with
        | error e => rw [h1, h2] at h; cases h
        | ok b' =>
        rw [h1, h2] at h
        simp only [bind, Except.bind] at h
        cases hs : a'.add b' with
        | error e => rw [hs] at h; cases h
        | ok s => rw [hs] at h; exact key a' b' s _ _ hs h
      · cases h

theorem colEmit_noZero {rowv colv : Vocab κ} (hrw : Constructed rowv) {d : ColData κ} (hI : Inv rowv colv d) {m : Mtx κ Int}
    (h : ColRes.sub m ∈ colEmit rowv colv d) : NoZero m := by
  unfold colEmit at h
  simp only at h
  split at h
  · next hpos =>
    have hcols : (if Vocab.len colv = 0 then itemList d.colv else itemList colv) = itemList d.colv := by
      split
      · rfl
      · next h => rw [hI.given (by unfold Vocab.len at h; rwa [keys_eq_nil] at h)]
    rw [hcols] at h
    obtain ⟨s, h1, h2, h3⟩ := Verif.Flow.dictToSp_storedEntry hI.wf (rows := itemList rowv) (cols := itemList d.colv)
      (itemList_nodup hrw.1) (itemList_nodup hI.cwf)
      (fun r c v h => ⟨(mem_itemList _ _).2 (hI.pos r c v h).2.1, (mem_itemList _ _).2 (hI.pos r c v h).2.2⟩)
      ((countValues_pos hI.wf).1 hpos)
    have hm : dict2matrix d.mtx (itemList rowv) (itemList d.colv) = .ok ⟨.sp s, itemList rowv, itemList d.colv⟩ := by
      unfold dict2matrix
      rw [h1]
      exact mkMtx_sp h2.nr h2.nc
    rw [hm] at h
    simp only [List.mem_singleton, ColRes.sub.injEq] at h
    subst h
    intro t c h0
    rw [h3] at h0
    have := (hI.pos t c 0 h0).1
    omega
  · split at h
    · cases h
    · simp at h

theorem mergeRes_noZero {rs : List (ColRes κ)} {acc res : Option (Mtx κ Int)} (hacc : ∀ m, acc = some m → NoZero m)
    (hrs : ∀ m, ColRes.sub m ∈ rs → NoZero m) (h : rs.foldlM mergeRes acc = .ok res) : ∀ m, res = some m → NoZero m := by
  induction rs generalizing acc with
  | nil => cases h; exact hacc
  | cons r rs ih =>
    rw [List.foldlM_cons] at h
    cases hr : mergeRes acc r with
    | error e => rw [hr] at h; cases h
    | ok a =>
      rw [hr] at h
      refine ih (fun m hm => ?_) (fun m hm => hrs m (List.mem_cons_of_mem _ hm)) h
      subst hm
      cases r with
      | minus1 => cases hr; exact hacc m rfl
      | sub n =>
        cases acc with
        | none => cases hr; exact hrs m (by simp)
        | some a =>
          unfold mergeRes at hr
          simp only at hr
          cases hu : mergeTwo a n with
          | error e => rw [hu] at hr; cases hr
          | ok u => rw [hu] at hr; cases hr; exact mergeTwo_noZero hu

theorem Returns.noZero {f : Formatter ℓ μ κ} {L R : Nat} {rowv colv : Vocab κ} (hrw : Constructed rowv) (hc : Constructed colv)
    {files : List (List ℓ)} {m : Mtx κ Int} (h : Returns f L R rowv colv files (some m)) : NoZero m := by
  obtain ⟨W, as, s, hW, hcf, hs, hj, hb⟩ := h
  unfold buildColFreq at hb
  by_cases hr : rowv.freq = []
  · rw [if_pos (by unfold Vocab.len; rwa [keys_eq_nil])] at hb
    cases hb
  · rw [if_neg (by unfold Vocab.len; rwa [keys_eq_nil])] at hb
    obtain ⟨parts, _, hp, he⟩ := accumulate_results hW hcf hs hj
    unfold processResults readAll at hb
    rw [he] at hb
    refine mergeRes_noZero (acc := none) (fun m h => by cases h) ?_ hb m rfl
    intro n hn
    obtain ⟨l, _, hl⟩ := List.mem_flatMap.1 hn
    exact colEmit_noZero hrw (inv_share f L R hrw hr hc l) hl

/-! ### Scores by table -/

theorem weighted_cells {m : Mtx κ Int} (hm : Valid m) {s : Sp Int} (hb : m.body = .sp s) (hz : NoZero m) {k : Counts κ}
    (hkr : k.types = m.rows) (hkc : k.collocs = m.cols) (he : ∀ t ∈ m.rows, ∀ c ∈ m.cols, entry m t c = k.pair t c)
    (h1 : m.rows.length ≠ 1) (h2 : m.cols.length ≠ 1) (meas : String) :
    ((∃ u, weighted m meas = .ok u) ↔ ∃ μ, Assoc.parseMeas meas = some μ ∧
      ∀ t ∈ m.rows, ∀ c ∈ m.cols, 0 < k.pair t c → ∃ v, Assoc.Meas.func μ (tableAt k t c) = .ok v) ∧
    ∀ u, weighted m meas = .ok u → u.rows = m.rows ∧ u.cols = m.cols ∧ ∃ μ, Assoc.parseMeas meas = some μ ∧ ∀ t ∈ m.rows, ∀ c ∈ m.cols,
      (k.pair t c = 0 → entry u t c = 0) ∧ (0 < k.pair t c → Assoc.Meas.func μ (tableAt k t c) = .ok (entry u t c)) := by
  obtain ⟨nf, hnf, nk, ng⟩ := C53_row_sums_partial hm h1
  obtain ⟨cf, hcf, ck, cg⟩ := C53_col_sums_partial hm h2
  have hrow : ∀ t ∈ m.rows, Dict.get? nf t = some (k.row t : Int) := fun t ht => by
    rw [ng t ht]
    congr 1
    unfold Counts.row
    rw [hkc, cast_sum, List.map_map]
    exact congrArg _ (List.map_congr_left fun c hc => he t ht c hc)
  have hcol : ∀ c ∈ m.cols, Dict.get? cf c = some (k.col c : Int) := fun c hc => by
    rw [cg c hc]
    congr 1
    unfold Counts.col
    rw [hkr, cast_sum, List.map_map]
    exact congrArg _ (List.map_congr_left fun t ht => he t ht c hc)
  have hN : Assoc.IsTotal (realDict nf) (realDict cf) none (k.all : ℝ) := by
    refine Or.inr ⟨Or.inl rfl, ?_⟩
    rw [values_sum hm.rows nk hrow, values_sum hm.cols ck hcol]
    have e1 : (m.rows.map k.row).sum = k.all := by unfold Counts.all; rw [hkr]
    have e2 : (m.cols.map k.col).sum = k.all := by
      unfold Counts.all Counts.col Counts.row
      rw [hkr, hkc]
      exact (sum_swap m.rows m.cols k.pair).symm
    rw [e1, e2, max_self]
  have hval := valid_toReal hm hb
  have hbody : (toReal m).body = .sp (spReal s) := by unfold toReal; rw [hb]
  have hst : ∀ t ∈ m.rows, ∀ c ∈ m.cols, ∀ x, storedEntry (toReal m) t c = some x → x = (k.pair t c : ℝ) ∧ 0 < k.pair t c := by
    intro t ht c hc x hx
    rw [storedEntry_toReal hb] at hx
    cases hs : storedEntry m t c with
    | none => rw [hs] at hx; cases hx
    | some y =>
      rw [hs] at hx
      have e := he t ht c hc
      rw [entry_eq_stored hb, hs] at e
      simp only [Option.getD_some] at e
      simp only [Option.map_some, Option.some.injEq] at hx
      have hy : y ≠ 0 := fun h => hz t c (h ▸ hs)
      exact ⟨by rw [← hx, e]; simp, by omega⟩
  have hst' : ∀ t ∈ m.rows, ∀ c ∈ m.cols, 0 < k.pair t c → storedEntry (toReal m) t c = some (k.pair t c : ℝ) := by
    intro t ht c hc hp
    rw [storedEntry_toReal hb]
    have e := he t ht c hc
    rw [entry_eq_stored hb] at e
    cases hs : storedEntry m t c with
    | none =>
      rw [hs] at e
      simp only [Option.getD_none] at e
      omega
    | some y =>
      rw [hs] at e
      simp only [Option.getD_some] at e
      rw [e]
      simp
  have hw : weighted m meas = Assoc.computeAssociation (toReal m) (realDict nf) (realDict cf) none meas := by
    unfold weighted
    rw [hnf, hcf]
    rfl
  have out : ∀ u, weighted m meas = .ok u → u.rows = m.rows ∧ u.cols = m.cols ∧ ∃ μ, Assoc.parseMeas meas = some μ ∧
      ∀ t ∈ m.rows, ∀ c ∈ m.cols, (k.pair t c = 0 → entry u t c = 0) ∧
        (0 < k.pair t c → Assoc.Meas.func μ (tableAt k t c) = .ok (entry u t c)) := by
    intro u hu
    rw [hw] at hu
    obtain ⟨u1, u2, u3, ⟨us, ub, _⟩, μ', hμ, ucell⟩ := Assoc.C34_cells hval hN hu
    refine ⟨u1, u2, μ', hμ, fun t ht c hc => ⟨fun h0 => ?_, fun hp => ?_⟩⟩
    · cases hs : storedEntry (toReal m) t c with
      | none => rw [entry_eq_stored ub, (ucell t c).1 hs]; rfl
      | some x => exact absurd h0 (hst t ht c hc x hs).2.ne'
    · obtain ⟨fr, fc, v, hfr, hfc, hv, hs⟩ := (ucell t c).2 _ (hst' t ht c hc hp)
      rw [get?_realDict, hrow t ht] at hfr
      rw [get?_realDict, hcol c hc] at hfc
      simp only [Option.map_some, Option.some.injEq, Int.cast_natCast] at hfr hfc
      rw [← hfr, ← hfc] at hv
      have : entry u t c = v := by rw [entry_eq_stored ub, hs]; rfl
      rw [this]
      exact hv
  refine ⟨⟨?_, ?_⟩, out⟩
  · rintro ⟨u, hu⟩
    obtain ⟨-, -, μ', hμ, hc⟩ := out u hu
    exact ⟨μ', hμ, fun t ht c hc' hp => ⟨_, (hc t ht c hc').2 hp⟩⟩
  · rintro ⟨μ', hμ, hd⟩
    rw [hw]
    refine Assoc.C34_defined hval hbody hN hμ (fun r hr => by rw [keys_realDict, nk]; exact hr)
      (fun c hc => by rw [keys_realDict, ck]; exact hc) ?_
    intro t c x fr fc hx hfr hfc
    obtain ⟨ht, hc⟩ := storedEntry_names hx
    have ht : t ∈ m.rows := ht
    have hc : c ∈ m.cols := hc
    obtain ⟨e, hp⟩ := hst t ht c hc x hx
    rw [e]
    rw [get?_realDict, hrow t ht] at hfr
    rw [get?_realDict, hcol c hc] at hfc
    simp only [Option.map_some, Option.some.injEq, Int.cast_natCast] at hfr hfc
    rw [← hfr, ← hfc]
    exact hd t ht c hc hp

theorem times_nonneg {k : ℝ} (hk : 0 < k) {t : Assoc.Table} (h : Assoc.NonNeg t) : Assoc.NonNeg (Assoc.times k t) :=
  ⟨mul_nonneg hk.le h.h11, mul_nonneg hk.le h.h21, mul_nonneg hk.le h.h12, mul_nonneg hk.le h.h22⟩

theorem pmi_times {k : ℝ} (hk : 0 < k) {t : Assoc.Table} (h : Assoc.NonNeg t) (h11 : 0 < t.o11) :
    ∃ v w, Assoc.calcPmi t = .ok v ∧ Assoc.calcPmi (Assoc.times k t) = .ok w ∧ |w - v| ≤ 3 / 10 ^ 10 := by
  obtain ⟨v, hv, hv'⟩ := Assoc.C64_pmi_near h h11
  obtain ⟨w, hw, hw'⟩ := Assoc.C64_pmi_near (times_nonneg hk h) (t := Assoc.times k t) (mul_pos hk h11)
  refine ⟨v, w, hv, hw, ?_⟩
  have e : (Assoc.times k t).o11 / Assoc.expd (Assoc.times k t) (Assoc.rowA (Assoc.times k t)) (Assoc.colB (Assoc.times k t)) =
      t.o11 / Assoc.expd t (Assoc.rowA t) (Assoc.colB t) := by
    have hr : 0 < t.o11 + t.o12 := by linarith [h.h12]
    have hc : 0 < t.o11 + t.o21 := by linarith [h.h21]
    have hn : 0 < t.o11 + t.o21 + t.o12 + t.o22 := by linarith [h.h21, h.h12, h.h22]
    unfold Assoc.expd Assoc.rowA Assoc.colB Assoc.total Assoc.times
    simp only
    rw [← mul_add, ← mul_add, ← mul_add, ← mul_add]
    have := hk.ne'
    have := hr.ne'
    have := hc.ne'
    have := hn.ne'
    field_simp
  rw [e] at hw'
  have hs : 2 * Assoc.slip ≤ 3 / 10 ^ 10 := by unfold Assoc.slip Assoc.tiny; norm_num
  rw [abs_le] at *
  constructor <;> linarith [hv'.1, hv'.2, hw'.1, hw'.2]

theorem func_times {k : ℝ} (hk : 0 < k) {t : Assoc.Table} (h : Assoc.NonNeg t) (h11 : 0 < t.o11) {meas : String} {μ : Assoc.Meas}
    (hμ : Assoc.parseMeas meas = some μ) {v : ℝ} (hv : Assoc.Meas.func μ t = .ok v) :
    ∃ w, Assoc.Meas.func μ (Assoc.times k t) = .ok w ∧ ScoreLaw meas k v w := by
  obtain ⟨d1, d2, d3, d4⟩ := Assoc.C148_invariant hk.ne' t
  obtain ⟨l1, l2⟩ := Assoc.C148_linear hk t
  obtain ⟨p, q, hp, hq, hpq⟩ := pmi_times hk h h11
  unfold Assoc.parseMeas at hμ
  repeat' split at hμ
  all_goals cases hμ
  all_goals rename_i e; subst e
  · rw [show Assoc.Meas.func .pmi = Assoc.calcPmi from rfl] at *
    rw [hp] at hv; cases hv
    exact ⟨q, hq, ⟨by simp, by simp, by simp, fun _ => hpq⟩⟩
  · rw [show Assoc.Meas.func .ppmi = Assoc.calcPpmi from rfl] at *
    rw [Assoc.C30_ppmi_is_positive_part, hp] at hv; cases hv
    refine ⟨max 0 q, by rw [Assoc.C30_ppmi_is_positive_part, hq]; rfl, ⟨by simp, by simp, by simp, fun _ => ?_⟩⟩
    refine le_trans (abs_max_sub_max_le_max 0 q 0 p) ?_
    rw [sub_self, abs_zero]
    exact max_le (by norm_num) hpq
  · rw [show Assoc.Meas.func .lik = Assoc.calcLik from rfl] at *
    exact ⟨k * v, by rw [l2, hv]; rfl, ⟨by simp, by simp, by simp, by simp⟩⟩
  · rw [show Assoc.Meas.func .lik = Assoc.calcLik from rfl] at *
    exact ⟨k * v, by rw [l2, hv]; rfl, ⟨by simp, by simp, by simp, by simp⟩⟩
  · rw [show Assoc.Meas.func .chisq = Assoc.calcChisq from rfl] at *
    exact ⟨k * v, by rw [l1, hv]; rfl, ⟨by simp, by simp, by simp, by simp⟩⟩
  · rw [show Assoc.Meas.func .zscore = Assoc.calcZscore from rfl] at *
    exact ⟨Real.sqrt k * v, Assoc.C148_zscore hk hv, ⟨by simp, by simp, by simp, by simp⟩⟩
  · rw [show Assoc.Meas.func .dice = Assoc.calcDice from rfl] at *
    exact ⟨v, by rw [d1, hv], ⟨by simp, by simp, by simp, by simp⟩⟩
  · rw [show Assoc.Meas.func .deltap = Assoc.calcDeltap from rfl] at *
    exact ⟨v, by rw [d2, hv], ⟨by simp, by simp, by simp, by simp⟩⟩
  · rw [show Assoc.Meas.func .deltapColl = Assoc.calcDeltapColl from rfl] at *
    exact ⟨v, by rw [d3, hv], ⟨by simp, by simp, by simp, by simp⟩⟩
  · rw [show Assoc.Meas.func .logratio = Assoc.calcLogRatio from rfl] at *
    exact ⟨v, by rw [d4, hv], ⟨by simp, by simp, by simp, by simp⟩⟩

/-! ### Repetition -/

theorem sum_repeated {α : Type} (N : Nat) (l : List α) (h : α → Nat) : ((List.replicate N l).flatten.map h).sum = N * (l.map h).sum := by
  induction N with
  | zero => simp
  | succ N ih => rw [List.replicate_succ, List.flatten_cons, List.map_append, List.sum_append, ih]; ring

theorem totalCount_repeated {f : Formatter ℓ μ κ} {g : Formatter ℓ' μ' κ} {N : Nat} {a : List (List ℓ)} {b : List (List ℓ')}
    (hab : (sentencesOf g b).Perm (List.replicate N (sentencesOf f a)).flatten) (L R : Nat) (rowv colv : Vocab κ) (t c : κ) :
    totalCount g L R rowv colv b t c = N * totalCount f L R rowv colv a t c := by
  rw [totalCount_sentences, totalCount_sentences, (hab.map _).sum_eq, sum_repeated]
  split
  · rfl
  · rw [mul_zero]

/-- **C217**, counts: a corpus in which every sentence of another stands `N` times has the same rows and columns, and `N` times the
counts; both have a matrix or none has. -/
theorem C217_counts {f : Formatter ℓ μ κ} {g : Formatter ℓ' μ' κ} {L R : Nat} {rowv colv : Vocab κ} (hrw : Constructed rowv) (hc : Constructed colv)
    {N : Nat} (hN : N ≠ 0) {a : List (List ℓ)} {b : List (List ℓ')} (hab : (sentencesOf g b).Perm (List.replicate N (sentencesOf f a)).flatten)
    {ra rb : Option (Mtx κ Int)} (ha : Returns f L R rowv colv a ra) (hb : Returns g L R rowv colv b rb) :
    (ra = none ∧ rb = none) ∨
      ∃ m n, ra = some m ∧ rb = some n ∧ n.rows = m.rows ∧ n.cols = m.cols ∧ ∀ t c, entry n t c = N * entry m t c := by
  have ka := ha.isResult hrw hc
  have kb := hb.isResult hrw hc
  have e := totalCount_repeated hab L R rowv colv
  have hpos : ∀ t c, 0 < totalCount g L R rowv colv b t c ↔ 0 < totalCount f L R rowv colv a t c := fun t c => by
    rw [e]
    exact ⟨fun h => Nat.pos_of_ne_zero (fun h0 => by rw [h0] at h; simp at h), fun h => Nat.mul_pos (Nat.pos_of_ne_zero hN) h⟩
  cases ra with
  | none =>
    cases rb with
    | none => exact .inl ⟨rfl, rfl⟩
    | some n =>
      obtain ⟨t, c, h⟩ := kb.2
      have := ka t c
      rw [hpos] at h
      omega
  | some m =>
    cases rb with
    | none =>
      obtain ⟨t, c, h⟩ := ka.2
      have := kb t c
      rw [← hpos] at h
      omega
    | some n =>
      refine .inr ⟨m, n, rfl, rfl, kb.1.rows.trans ka.1.rows.symm, ?_, fun t c => by rw [ka.1.entry, kb.1.entry, e]; push_cast; rfl⟩
      refine eq_of_perm_of_pairwise (fun a _ b _ x y => le_antisymm x y) ?_ kb.1.sorted ka.1.sorted
      refine (List.perm_ext_iff_of_nodup kb.1.valid.cols ka.1.valid.cols).2 (fun c => ?_)
      rw [ka.1.cols, kb.1.cols]
      simp only [hpos]

/-- **C217**, frequencies: they are multiplied by `N`. -/
theorem C217_freq {f : Formatter ℓ μ κ} {g : Formatter ℓ' μ' κ} {N : Nat} (hN : N ≠ 0) {a : List (List ℓ)} {b : List (List ℓ')}
    (hab : (sentencesOf g b).Perm (List.replicate N (sentencesOf f a)).flatten) {va vb : Vocab κ} (ha : ReturnsFreq f a va) (hb : ReturnsFreq g b vb)
    (k : κ) : vb.freq.get? k = (va.freq.get? k).map (fun x : Int => (N : Int) * x) := by
  obtain ⟨W1, as1, s1, r1, a1, a2, a3, rfl⟩ := ha
  obtain ⟨W2, as2, s2, r2, b1, b2, b3, rfl⟩ := hb
  rw [C01_freq_list f W1 a as1 s1 r1 a1 a2 a3, C01_freq_list g W2 b as2 s2 r2 b1 b2 b3, occurrences_sentences, occurrences_sentences,
    (hab.map _).sum_eq, sum_repeated]
  simp only
  generalize (List.map (List.countP (fun z : κ × κ => decide (z.1 = k))) (sentencesOf f a)).sum = x
  by_cases h : 0 < x
  · rw [if_pos h, if_pos (Nat.mul_pos (Nat.pos_of_ne_zero hN) h)]
    simp
  · have h0 : x = 0 := by omega
    subst h0
    simp

/-- **C217**, scores: weight both matrices with their own sums.  Both calls fail or both return, and then the scores compare as `ScoreLaw`
says: Dice, delta P and log ratio stay, chi square and log likelihood are multiplied by `N`, z-scores by its root, and pointwise mutual
information stays within `3e-10` (the code adds a small number where a value is exactly 1). -/
theorem C217_scores {f : Formatter ℓ μ κ} {g : Formatter ℓ' μ' κ} {L R : Nat} {rowv colv : Vocab κ} (hrw : Constructed rowv) (hc : Constructed colv)
    {N : Nat} (hN : N ≠ 0) {a : List (List ℓ)} {b : List (List ℓ')} (hab : (sentencesOf g b).Perm (List.replicate N (sentencesOf f a)).flatten)
    {m n : Mtx κ Int} (ha : Returns f L R rowv colv a (some m)) (hb : Returns g L R rowv colv b (some n)) (meas : String) :
    ((∀ u, weighted m meas ≠ .ok u) ∧ ∀ w, weighted n meas ≠ .ok w) ∨
      ∃ u w, weighted m meas = .ok u ∧ weighted n meas = .ok w ∧ w.rows = u.rows ∧ w.cols = u.cols ∧
        ∀ t ∈ u.rows, ∀ c ∈ u.cols, ScoreLaw meas N (entry u t c) (entry w t c) := by
  have ka := (ha.isResult hrw hc).1
  have kb := (hb.isResult hrw hc).1
  have za := ha.noZero hrw hc
  have zb := hb.noZero hrw hc
  rcases C217_counts hrw hc hN hab ha hb with ⟨h, -⟩ | ⟨m', n', hm', hn', hrows, hcols, hent⟩
  · cases h
  cases hm'; cases hn'
  by_cases hl : m.rows.length = 1 ∨ m.cols.length = 1
  · left
    rw [C191_single ka.valid hl, C191_single kb.valid (by rw [hrows, hcols]; exact hl)]
    exact ⟨fun u h => (nomatch h), fun u h => (nomatch h)⟩
  push Not at hl
  obtain ⟨sm, hsm, -⟩ := ka.csr
  obtain ⟨sn, hsn, -⟩ := kb.csr
  obtain ⟨am, om⟩ := weighted_cells ka.valid hsm za (k := ⟨totalCount f L R rowv colv a, m.rows, m.cols⟩) rfl rfl
    (fun t _ c _ => ka.entry t c) hl.1 hl.2 meas
  obtain ⟨an, on⟩ := weighted_cells kb.valid hsn zb (k := ⟨totalCount g L R rowv colv b, n.rows, n.cols⟩) rfl rfl
    (fun t _ c _ => kb.entry t c) (by rw [hrows]; exact hl.1) (by rw [hcols]; exact hl.2) meas
  have e := totalCount_repeated hab L R rowv colv
  rw [hrows, hcols] at an on
  have hpair : (fun t c => totalCount g L R rowv colv b t c) = fun t c => N * totalCount f L R rowv colv a t c := by
    funext t c; exact e t c
  have hpair' : totalCount g L R rowv colv b = fun t c => N * totalCount f L R rowv colv a t c := hpair
  rw [hpair'] at an on
  generalize totalCount f L R rowv colv a = p at *
  have hN' : (0 : ℝ) < N := by exact_mod_cast Nat.pos_of_ne_zero hN
  have htab : ∀ t c, tableAt (⟨fun t c => N * p t c, m.rows, m.cols⟩ : Counts κ) t c = Assoc.times N (tableAt ⟨p, m.rows, m.cols⟩ t c) := by
    intro t c
    have r1 : ∀ t, Counts.row (⟨fun t c => N * p t c, m.rows, m.cols⟩ : Counts κ) t = N * Counts.row ⟨p, m.rows, m.cols⟩ t := fun t => by
      unfold Counts.row; exact List.sum_map_mul_left ..
    have r2 : ∀ c, Counts.col (⟨fun t c => N * p t c, m.rows, m.cols⟩ : Counts κ) c = N * Counts.col ⟨p, m.rows, m.cols⟩ c := fun c => by
      unfold Counts.col; exact List.sum_map_mul_left ..
    have r3 : Counts.all (⟨fun t c => N * p t c, m.rows, m.cols⟩ : Counts κ) = N * Counts.all ⟨p, m.rows, m.cols⟩ := by
      unfold Counts.all; simp only [r1]; exact List.sum_map_mul_left ..
    unfold tableAt Assoc.times
    rw [r1, r2, r3]
    push_cast
    congr 1 <;> ring
  have hT : ∀ t ∈ m.rows, ∀ c ∈ m.cols, Assoc.NonNeg (tableAt (⟨p, m.rows, m.cols⟩ : Counts κ) t c) := by
    intro t ht c hc
    obtain ⟨a1, a2, a3⟩ := Counts.table (⟨p, m.rows, m.cols⟩ : Counts κ) ht hc
    generalize hk : (⟨p, m.rows, m.cols⟩ : Counts κ) = k at *
    have b1 : (k.pair t c : ℝ) ≤ k.row t := by exact_mod_cast a1
    have b2 : (k.pair t c : ℝ) ≤ k.col c := by exact_mod_cast a2
    have b3 : (k.row t : ℝ) + k.col c ≤ k.all + k.pair t c := by exact_mod_cast a3
    have b0 : (0 : ℝ) ≤ k.pair t c := Nat.cast_nonneg _
    unfold tableAt
    exact ⟨b0, by simp only; linarith, by simp only; linarith, by simp only; linarith⟩
  simp only [htab] at an on
  have hpos : ∀ t c, 0 < N * p t c ↔ 0 < p t c := fun t c =>
    ⟨fun h => Nat.pos_of_ne_zero (fun h0 => by rw [h0] at h; simp at h), fun h => Nat.mul_pos (Nat.pos_of_ne_zero hN) h⟩
  by_cases hu : ∃ u, weighted m meas = .ok u
  · right
    obtain ⟨μ', hμ, hd⟩ := am.1 hu
    obtain ⟨w, hw⟩ := an.2 ⟨μ', hμ, fun t ht c hc hp => by
      obtain ⟨v, hv⟩ := hd t ht c hc ((hpos t c).1 hp)
      obtain ⟨w, hw, -⟩ := func_times hN' (hT t ht c hc) (by show (0 : ℝ) < (p t c : ℝ); exact_mod_cast (hpos t c).1 hp) hμ hv
      exact ⟨w, hw⟩⟩
    obtain ⟨u, hu⟩ := hu
    obtain ⟨u1, u2, μ1, hμ1, hc1⟩ := om u hu
    obtain ⟨w1, w2, μ2, hμ2, hc2⟩ := on w hw
    rw [hμ] at hμ1 hμ2
    cases hμ1; cases hμ2
    refine ⟨u, w, hu, hw, w1.trans u1.symm, w2.trans u2.symm, fun t ht c hc => ?_⟩
    rw [u1] at ht
    rw [u2] at hc
    rcases Nat.eq_zero_or_pos (p t c) with h0 | h0
    · rw [(hc1 t ht c hc).1 h0, (hc2 t ht c hc).1 (by simp [h0])]
      exact ⟨fun _ => rfl, fun _ => by simp, fun _ => by simp, fun _ => by norm_num⟩
    · obtain ⟨w', hw', hlaw⟩ := func_times hN' (hT t ht c hc) (by show (0 : ℝ) < (p t c : ℝ); exact_mod_cast h0) hμ ((hc1 t ht c hc).2 h0)
      rw [(hc2 t ht c hc).2 ((hpos t c).2 h0)] at hw'
      cases hw'
      exact hlaw
  · left
    refine ⟨fun u h => hu ⟨u, h⟩, fun w h => hu (am.2 ?_)⟩
    obtain ⟨μ', hμ, hd⟩ := an.1 ⟨w, h⟩
    refine ⟨μ', hμ, fun t ht c hc hp => ?_⟩
    obtain ⟨v, hv⟩ := hd t ht c hc ((hpos t c).2 hp)
    have hn := times_nonneg hN' (hT t ht c hc)
    obtain ⟨w', hw', -⟩ := func_times (inv_pos.2 hN') hn (mul_pos hN' (by show (0 : ℝ) < (p t c : ℝ); exact_mod_cast hp)) hμ hv
    refine ⟨w', ?_⟩
    have : Assoc.times (N : ℝ)⁻¹ (Assoc.times N (tableAt (⟨p, m.rows, m.cols⟩ : Counts κ) t c)) = tableAt (⟨p, m.rows, m.cols⟩ : Counts κ) t c := by
      unfold Assoc.times
      simp only [inv_mul_cancel_left₀ hN'.ne']
    rwa [this] at hw'

/-- Non-vacuity: two sentences, and each of them three times, in two files and another order. -/
example : (sentencesOf fmt [[1, 2, 10, 10, 2, 1], [1, 2], [2, 1, 10, 1, 2, 10, 2, 1]]).Perm (List.replicate 3 (sentencesOf fmt [[1, 2, 10, 2, 1]])).flatten := by
  have h0 : sentencesOf fmt [[1, 2, 10, 2, 1]] = [[(1, 1), (2, 2)], [(2, 2), (1, 1)]] := by decide +kernel
  have h1 : sentencesOf fmt [[1, 2, 10, 10, 2, 1], [1, 2], [2, 1, 10, 1, 2, 10, 2, 1]] =
    [[(1, 1), (2, 2)], [(2, 2), (1, 1)], [(1, 1), (2, 2)], [(2, 2), (1, 1)], [(1, 1), (2, 2)], [(2, 2), (1, 1)]] := by decide +kernel
  rw [h0, h1]
  rfl

end
end Verif.Cooc
