import Verif.Cooc.Model

/-! # Property theorems C04 (co-occurrence matrices built by several workers) -/

set_option linter.unusedSectionVars false

namespace Verif.Cooc
open Verif.Py Verif.Vocab Verif.Corpus Verif.Window Verif.Engine Verif.Matrix

variable {ℓ μ κ : Type} [LinearOrder κ]

/-! ### Specification -/

/-- What one file contributes to the pair (`t`, `c`): pairs of positions of a segment within the spans, except that
in a segment of at most `R` lines the last line is no target (see `C10_exact`). -/
def pairCount (f : Formatter ℓ μ κ) (L R : Nat) (file : List ℓ) (t c : κ) : Nat :=
  ((segTexts f file).map (fun xs =>
    ((Finset.range xs.length ×ˢ Finset.range xs.length).filter (fun p : Nat × Nat =>
      (xs.length ≤ R → p.1 + 1 < xs.length) ∧ p.1 ≠ p.2 ∧ p.1 ≤ p.2 + L ∧ p.2 ≤ p.1 + R ∧
      xs[p.1]?.map f.getType = some t ∧ xs[p.2]?.map f.getColloc = some c)).card)).sum

/-- The pair is asked for: the target is in the row vocabulary, the collocate in the column vocabulary if one is
given. -/
def Wanted (rowv colv : Vocab κ) (t c : κ) : Prop :=
  t ∈ rowv.freq.keys ∧ (colv.freq = [] ∨ c ∈ colv.freq.keys)

instance (rowv colv : Vocab κ) (t c : κ) : Decidable (Wanted rowv colv t c) := by unfold Wanted; infer_instance

/-- Sum of the wanted counts of a pair over files. -/
def totalCount (f : Formatter ℓ μ κ) (L R : Nat) (rowv colv : Vocab κ) (files : List (List ℓ)) (t c : κ) : Nat :=
  if Wanted rowv colv t c then (files.map (fun file => pairCount f L R file t c)).sum else 0

/-- A vocabulary made by the constructor from a frequency dict (it then filters exactly when it is nonempty). -/
def Constructed (v : Vocab κ) : Prop := v.freq.WF ∧ v.filter = decide (0 < v.freq.keys.length)

theorem constructed_mk' (d : Dict κ Int) (h : Dict.WF d) (b : Bool) : Constructed (mk' d b) := ⟨h, rfl⟩

/-! ### The loop over one file -/

theorem updateFile_inv (f : Formatter ℓ μ κ) (L R : Nat) (rowv : Vocab κ) (P : ColData κ → Prop)
    (hP : ∀ d t c, passes rowv t = true → P d → P (addColloc d t c)) {d d' : ColData κ} (hd : P d) {file : List ℓ}
    (h : updateFile f L R (colCallbacks f rowv) d file = .ok d') : P d' := by
  have hslots : ∀ (t : κ), passes rowv t = true → ∀ (slots : List (Option (μ × Nat))) (d : ColData κ), P d →
      P (slots.foldl (addSlot f t) d) := by
    intro t ht slots
    induction slots with
    | nil => intro d hd; exact hd
    | cons s slots ih =>
      intro d hd
      rw [List.foldl_cons]
      apply ih
      cases s with
      | none => exact hd
      | some x => exact hP d t _ ht hd
  have hmatch : ∀ (d : ColData κ) (w : Win (μ × Nat)), P d → P (colMatch f rowv d w) := by
    intro d w hd
    unfold colMatch
    cases w.node with
    | none => exact hd
    | some x =>
      simp only
      by_cases hfound : (if rowv.filter then contains rowv (f.getType x.1) else true) = true
      · rw [hfound]
        simp only [Bool.not_true, Bool.false_eq_true, if_false]
        have ht : passes rowv (f.getType x.1) = true := by
          unfold passes
          by_cases hf : rowv.filter = true
          · simp only [hf, if_true] at hfound; simp [hfound]
          · simp [hf]
        exact hslots _ ht _ _ (hslots _ ht _ _ hd)
      · rw [Bool.not_eq_true] at hfound
        rw [hfound]
        exact hd
  have hseg : ∀ (xs : List (μ × Nat)) (N : Nat) (d : ColData κ), P d → P (segFold (colMatch f rowv) L R xs d N) := by
    intro xs N d hd
    induction N with
    | zero => exact hd
    | succ N ih => rw [segFold_succ]; exact hmatch _ _ ih
  rw [run_file f L R (colCallbacks f rowv) (colMatch_ignores f rowv)
    (fun d xs => .ok (segFold (colMatch f rowv) L R xs d (colVisits R xs.length)))
    (fun d xs => colEnd_eq (colMatch_ignores f rowv) L R xs d)] at h
  generalize segments f file = segs at h
  induction segs generalizing d with
  | nil => cases h; exact hd
  | cons xs segs ih => rw [List.foldlM_cons] at h; exact ih (hseg xs _ d hd) h

theorem colUpd_spec (f : Formatter ℓ μ κ) (L R : Nat) (rowv : Vocab κ) (d : ColData κ) (file : List ℓ) :
    updateFile f L R (colCallbacks f rowv) d file = .ok (colUpd f L R rowv d file) ∧
    (∀ c, passes (colUpd f L R rowv d file).colv c = passes d.colv c) ∧
    ∀ t c, cell (colUpd f L R rowv d file).mtx t c = cell d.mtx t c +
      if passes rowv t ∧ passes d.colv c then (pairCount f L R file t c : Int) else 0 := by
  obtain ⟨d', h1, h2, _⟩ := updateFile_col f rowv L R d file
  obtain ⟨d'', h1', h3⟩ := C10_exact f L R rowv d file
  rw [h1] at h1'
  cases h1'
  unfold colUpd
  rw [h1]
  exact ⟨rfl, h2, h3⟩

theorem foldl_colUpd (f : Formatter ℓ μ κ) (L R : Nat) (rowv : Vocab κ) (files : List (List ℓ)) (d : ColData κ) :
    (∀ c, passes (files.foldl (colUpd f L R rowv) d).colv c = passes d.colv c) ∧
    ∀ t c, cell (files.foldl (colUpd f L R rowv) d).mtx t c = cell d.mtx t c +
      if passes rowv t ∧ passes d.colv c then ((files.map (fun file => pairCount f L R file t c)).sum : Int) else 0 := by
  induction files generalizing d with
  | nil => exact ⟨fun _ => rfl, fun t c => by simp⟩
  | cons file files ih =>
    rw [List.foldl_cons]
    obtain ⟨_, a2, a3⟩ := colUpd_spec f L R rowv d file
    obtain ⟨i2, i3⟩ := ih (colUpd f L R rowv d file)
    refine ⟨fun c => by rw [i2, a2], fun t c => ?_⟩
    rw [i3, a3, a2, List.map_cons, List.sum_cons]
    by_cases hp : passes rowv t = true ∧ passes d.colv c = true
    · simp only [if_pos hp]; push_cast; omega
    · simp only [if_neg hp]; omega

/-! ### What a worker holds -/

/-- Invariant of the accumulated dict of a worker. -/
structure Inv (rowv colv : Vocab κ) (d : ColData κ) : Prop where
  wf : WF2 d.mtx
  pos : ∀ t c v, at2 d.mtx t c = some v → 1 ≤ v ∧ t ∈ rowv.freq.keys ∧ c ∈ d.colv.freq.keys
  cwf : d.colv.freq.WF
  given : colv.freq ≠ [] → d.colv = colv
  none : colv.freq = [] → d.colv.filter = false ∧ ∀ c ∈ d.colv.freq.keys, ∃ t v, at2 d.mtx t c = some v

theorem keys_eq_nil {β : Type} (d : Dict κ β) : d.keys.length = 0 ↔ d = [] := by
  rw [List.length_eq_zero_iff]
  unfold Dict.keys
  exact List.map_eq_nil_iff

theorem cell_at2 (d : Nested κ) (t c : κ) : cell d t c = (at2 d t c).getD 0 := by
  unfold cell at2
  cases Dict.get? d t <;> rfl

theorem inv_init {rowv colv : Vocab κ} (hc : Constructed colv) : Inv rowv colv (colInit colv) := by
  refine ⟨⟨Dict.WF_nil, by simp [colInit]⟩, by intro t c v h; simp [colInit, at2] at h, ?_, ?_, ?_⟩
  · unfold colInit
    simp only
    split
    · exact Dict.WF_nil
    · exact hc.1
  · intro hne
    unfold colInit
    simp only
    rw [if_neg]
    unfold Vocab.len
    rwa [keys_eq_nil]
  · intro he
    have : (colInit colv).colv = Vocab.empty := by
      unfold colInit
      simp only
      rw [if_pos]
      unfold Vocab.len
      rwa [keys_eq_nil]
    rw [this]
    refine ⟨rfl, by intro c hc; simp [Vocab.empty, mk'] at hc⟩

theorem inv_addColloc {rowv colv : Vocab κ} (hrw : Constructed rowv) (hr : rowv.freq ≠ []) (hc : Constructed colv)
    (d : ColData κ) (t c : κ) (ht : passes rowv t = true) (hI : Inv rowv colv d) : Inv rowv colv (addColloc d t c) := by
  have htr : t ∈ rowv.freq.keys := by
    have hf : rowv.filter = true := by
      rw [hrw.2]
      have : rowv.freq.keys.length ≠ 0 := by rwa [Ne, keys_eq_nil]
      simpa using Nat.pos_of_ne_zero this
    unfold passes at ht
    rw [hf] at ht
    simp only [Bool.not_true, Bool.false_or] at ht
    exact (Dict.contains_iff _ _).1 ht
  have hbump : ∀ t' c', at2 (bump d.mtx t c) t' c' =
      if t = t' ∧ c = c' then some ((((d.mtx.get? t).getD []).get? c).getD 0 + 1) else at2 d.mtx t' c' :=
    fun t' c' => at2_set d.mtx t c _ t' c'
  have hnn : 0 ≤ (((d.mtx.get? t).getD []).get? c).getD 0 := by
    have : (((d.mtx.get? t).getD []).get? c).getD 0 = (at2 d.mtx t c).getD 0 := cell_at2 d.mtx t c
    rw [this]
    cases h : at2 d.mtx t c with
    | none => simp
    | some v => have := (hI.pos t c v h).1; simp only [Option.getD_some]; omega
  by_cases hce : colv.freq = []
  · obtain ⟨n1, n2⟩ := hI.none hce
    have e : addColloc d t c = { mtx := bump d.mtx t c, colv := increment d.colv c 1 } := by
      unfold addColloc; rw [n1]; rfl
    have hk : ∀ c', c' ∈ (increment d.colv c 1).freq.keys ↔ c' = c ∨ c' ∈ d.colv.freq.keys := by
      intro c'
      rw [← Dict.get?_isSome_iff, get?_increment, ← Dict.get?_isSome_iff]
      by_cases h : c' = c
      · subst h; simp
      · have h' : ¬ c = c' := fun x => h x.symm
        simp [h, h']
    rw [e]
    refine ⟨WF2_set hI.wf _ _ _, ?_, WF_increment hI.cwf _ _, fun h => absurd hce h, fun _ => ⟨by simp [n1], ?_⟩⟩
    · intro t' c' v h
      simp only at h
      rw [hbump] at h
      split at h
      · next he =>
        obtain ⟨rfl, rfl⟩ := he
        cases h
        exact ⟨by omega, htr, (hk _).2 (Or.inl rfl)⟩
      · obtain ⟨p1, p2, p3⟩ := hI.pos t' c' v h
        exact ⟨p1, p2, (hk _).2 (Or.inr p3)⟩
    · intro c' hc'
      simp only at hc' ⊢
      rcases (hk c').1 hc' with rfl | h
      · exact ⟨t, _, by rw [hbump, if_pos ⟨rfl, rfl⟩]⟩
      · obtain ⟨t', v, hv⟩ := n2 c' h
        by_cases he : t = t' ∧ c = c'
        · exact ⟨t', _, by rw [hbump, if_pos he]⟩
        · exact ⟨t', v, by rw [hbump, if_neg he]; exact hv⟩
  · have hg := hI.given hce
    have hf : d.colv.filter = true := by
      rw [hg, hc.2]
      have : colv.freq.keys.length ≠ 0 := by rwa [Ne, keys_eq_nil]
      simpa using Nat.pos_of_ne_zero this
    by_cases hcon : contains d.colv c = true
    · have e : addColloc d t c = { d with mtx := bump d.mtx t c } := by
        unfold addColloc; rw [hf, hcon]; rfl
      rw [e]
      refine ⟨WF2_set hI.wf _ _ _, ?_, hI.cwf, fun _ => hg, fun h => absurd h hce⟩
      intro t' c' v h
      simp only at h
      rw [hbump] at h
      split at h
      · next he =>
        obtain ⟨rfl, rfl⟩ := he
        cases h
        exact ⟨by omega, htr, (Dict.contains_iff _ _).1 hcon⟩
      · exact hI.pos t' c' v h
    · have e : addColloc d t c = d := by
        unfold addColloc; rw [hf]; simp [hcon]
      rw [e]; exact hI

theorem inv_share (f : Formatter ℓ μ κ) (L R : Nat) {rowv colv : Vocab κ} (hrw : Constructed rowv)
    (hr : rowv.freq ≠ []) (hc : Constructed colv) (files : List (List ℓ)) :
    Inv rowv colv (files.foldl (colUpd f L R rowv) (colInit colv)) := by
  have : ∀ d, Inv rowv colv d → Inv rowv colv (files.foldl (colUpd f L R rowv) d) := by
    induction files with
    | nil => exact fun d h => h
    | cons file files ih =>
      intro d h
      rw [List.foldl_cons]
      exact ih _ (updateFile_inv f L R rowv (Inv rowv colv) (fun d t c ht hd => inv_addColloc hrw hr hc d t c ht hd) h
        (colUpd_spec f L R rowv d file).1)
  exact this _ (inv_init hc)

theorem passes_row {rowv : Vocab κ} (hrw : Constructed rowv) (hr : rowv.freq ≠ []) (t : κ) :
    passes rowv t = true ↔ t ∈ rowv.freq.keys := by
  have hf : rowv.filter = true := by
    rw [hrw.2]
    have : rowv.freq.keys.length ≠ 0 := by rwa [Ne, keys_eq_nil]
    simpa using Nat.pos_of_ne_zero this
  unfold passes
  rw [hf]
  simp only [Bool.not_true, Bool.false_or]
  exact Dict.contains_iff _ _

theorem passes_col {colv : Vocab κ} (hc : Constructed colv) (c : κ) :
    passes (colInit colv).colv c = true ↔ colv.freq = [] ∨ c ∈ colv.freq.keys := by
  unfold colInit Vocab.len
  simp only [keys_eq_nil]
  by_cases h : colv.freq = []
  · rw [if_pos h]
    simp [h, passes, Vocab.empty, mk']
  · rw [if_neg h]
    simp only [h, false_or]
    exact passes_row hc h c

/-- The counts a worker ends with are those of its share of the files. -/
theorem at2_share (f : Formatter ℓ μ κ) (L R : Nat) {rowv colv : Vocab κ} (hrw : Constructed rowv)
    (hr : rowv.freq ≠ []) (hc : Constructed colv) (files : List (List ℓ)) (t c : κ) :
    (at2 (files.foldl (colUpd f L R rowv) (colInit colv)).mtx t c).getD 0 =
      (totalCount f L R rowv colv files t c : Int) := by
  rw [← cell_at2, (foldl_colUpd f L R rowv files (colInit colv)).2]
  have : cell (colInit colv).mtx t c = 0 := rfl
  rw [this, zero_add]
  have hiff : (passes rowv t = true ∧ passes (colInit colv).colv c = true) ↔ Wanted rowv colv t c := by
    unfold Wanted
    rw [passes_row hrw hr, passes_col hc]
  unfold totalCount
  by_cases hw : Wanted rowv colv t c
  · rw [if_pos (hiff.2 hw), if_pos hw]
  · rw [if_neg (fun h => hw (hiff.1 h)), if_neg hw]; rfl

theorem at2_share_isSome (f : Formatter ℓ μ κ) (L R : Nat) {rowv colv : Vocab κ} (hrw : Constructed rowv)
    (hr : rowv.freq ≠ []) (hc : Constructed colv) (files : List (List ℓ)) (t c : κ) :
    (∃ v, at2 (files.foldl (colUpd f L R rowv) (colInit colv)).mtx t c = some v) ↔
      0 < totalCount f L R rowv colv files t c := by
  have e := at2_share f L R hrw hr hc files t c
  have hI := inv_share f L R hrw hr hc files
  constructor
  · rintro ⟨v, hv⟩
    rw [hv] at e
    simp only [Option.getD_some] at e
    have := (hI.pos t c v hv).1
    omega
  · intro h
    cases hv : at2 (files.foldl (colUpd f L R rowv) (colInit colv)).mtx t c with
    | none => rw [hv] at e; simp only [Option.getD_none] at e; omega
    | some v => exact ⟨v, rfl⟩

theorem sum_eq_zero_iff' (l : List Nat) : l.sum = 0 ↔ ∀ n ∈ l, n = 0 := by
  induction l with
  | nil => simp
  | cons a l ih => rw [List.sum_cons, Nat.add_eq_zero_iff, ih]; simp

theorem countValues_pos {d : Nested κ} (h : WF2 d) : 0 < countValues d ↔ ∃ t c v, at2 d t c = some v := by
  unfold countValues
  rw [← not_iff_not]
  simp only [Nat.not_lt, Nat.le_zero, sum_eq_zero_iff', List.mem_map, forall_exists_index, and_imp,
    forall_apply_eq_imp_iff₂, keys_eq_nil]
  constructor
  · rintro h0 ⟨t, c, v, hv⟩
    unfold at2 at hv
    cases hg : Dict.get? d t with
    | none => rw [hg] at hv; cases hv
    | some row =>
      rw [hg] at hv
      have := h0 _ (Dict.mem_of_get? hg)
      simp only at this
      subst this
      simp at hv
  · intro hn p hp
    by_contra hne
    obtain ⟨q, rest, hq⟩ := List.exists_cons_of_ne_nil hne
    refine hn ⟨p.1, q.1, q.2, ?_⟩
    unfold at2
    rw [Dict.get?_of_mem h.outer (show (p.1, p.2) ∈ d from hp)]
    show Dict.get? p.2 q.1 = some q.2
    rw [hq, Dict.get?_cons]
    simp

/-! ### What the workers put -/

theorem itemList_nodup {v : Vocab κ} (h : v.freq.WF) : (itemList v).Nodup := (sortedBy_perm id _).nodup_iff.2 h

theorem mem_itemList (v : Vocab κ) (k : κ) : k ∈ itemList v ↔ k ∈ v.freq.keys := (sortedBy_perm id _).mem_iff

theorem itemList_sorted (v : Vocab κ) : (itemList v).Pairwise (· ≤ ·) := sortedBy_pairwise id _

/-- What a matrix for some files looks like by name. -/
structure IsCounts (f : Formatter ℓ μ κ) (L R : Nat) (rowv colv : Vocab κ) (files : List (List ℓ)) (m : Mtx κ Int) : Prop where
  valid : Valid m
  csr : IsCsr m
  rows : m.rows = itemList rowv
  sorted : m.cols.Pairwise (· ≤ ·)
  cols : ∀ c, c ∈ m.cols ↔ if colv.freq = [] then ∃ t, 0 < totalCount f L R rowv colv files t c else c ∈ colv.freq.keys
  entry : ∀ t c, entry m t c = totalCount f L R rowv colv files t c

theorem dict2matrix_share (f : Formatter ℓ μ κ) (L R : Nat) {rowv colv : Vocab κ} (hrw : Constructed rowv)
    (hr : rowv.freq ≠ []) (hc : Constructed colv) (files : List (List ℓ))
    (hpos : ∃ t c, 0 < totalCount f L R rowv colv files t c) :
    ∃ m, colEmit rowv colv (files.foldl (colUpd f L R rowv) (colInit colv)) = [.sub m] ∧
      IsCounts f L R rowv colv files m := by
  have hI := inv_share f L R hrw hr hc files
  have hat := at2_share f L R hrw hr hc files
  have hsome := at2_share_isSome f L R hrw hr hc files
  generalize files.foldl (colUpd f L R rowv) (colInit colv) = d at hI hat hsome
  have hex : ∃ t c v, at2 d.mtx t c = some v := by
    obtain ⟨t, c, h⟩ := hpos
    exact ⟨t, c, (hsome t c).2 h⟩
  unfold colEmit
  simp only
  rw [if_pos ((countValues_pos hI.wf).2 hex)]
  have hcols : (if Vocab.len colv = 0 then itemList d.colv else itemList colv) = itemList d.colv := by
    split
    · rfl
    · next h => rw [hI.given (by unfold Vocab.len at h; rwa [keys_eq_nil] at h)]
  rw [hcols]
  obtain ⟨s, h1, h2, h3, h4⟩ := dictToSp_entry hI.wf (rows := itemList rowv) (cols := itemList d.colv)
    (itemList_nodup hrw.1) (itemList_nodup hI.cwf)
    (fun r c v h => ⟨(mem_itemList _ _).2 (hI.pos r c v h).2.1, (mem_itemList _ _).2 (hI.pos r c v h).2.2⟩) hex
  have hm : dict2matrix d.mtx (itemList rowv) (itemList d.colv) = .ok ⟨.sp s, itemList rowv, itemList d.colv⟩ := by
    unfold dict2matrix
    rw [h1]
    exact mkMtx_sp h2.nr h2.nc
  rw [hm]
  refine ⟨_, rfl, h2, ⟨s, rfl, h3⟩, rfl, itemList_sorted _, ?_, ?_⟩
  · intro c
    show c ∈ itemList d.colv ↔ _
    rw [mem_itemList]
    split
    · next he =>
      constructor
      · intro h
        obtain ⟨t, hv⟩ := (hI.none he).2 c h
        exact ⟨t, (hsome t c).1 hv⟩
      · rintro ⟨t, h⟩
        obtain ⟨v, hv⟩ := (hsome t c).2 h
        exact (hI.pos t c v hv).2.2
    · next he => rw [hI.given he]
  · intro t c
    rw [h4, hat]

theorem colEmit_nothing (f : Formatter ℓ μ κ) (L R : Nat) {rowv colv : Vocab κ} (hrw : Constructed rowv)
    (hr : rowv.freq ≠ []) (hc : Constructed colv) (files : List (List ℓ))
    (hz : ∀ t c, totalCount f L R rowv colv files t c = 0) :
    colEmit rowv colv (files.foldl (colUpd f L R rowv) (colInit colv)) = if colv.freq = [] then [] else [.minus1] := by
  have hI := inv_share f L R hrw hr hc files
  have hsome := at2_share_isSome f L R hrw hr hc files
  unfold colEmit
  simp only
  rw [if_neg]
  · unfold Vocab.len
    simp only [keys_eq_nil]
  · rw [countValues_pos hI.wf]
    rintro ⟨t, c, h⟩
    have := (hsome t c).1 h
    rw [hz] at this
    exact absurd this (lt_irrefl _)

/-! ### Merging -/

theorem totalCount_append (f : Formatter ℓ μ κ) (L R : Nat) (rowv colv : Vocab κ) (a b : List (List ℓ)) (t c : κ) :
    totalCount f L R rowv colv (a ++ b) t c = totalCount f L R rowv colv a t c + totalCount f L R rowv colv b t c := by
  unfold totalCount
  split
  · rw [List.map_append, List.sum_append]
  · rfl

theorem totalCount_perm (f : Formatter ℓ μ κ) (L R : Nat) (rowv colv : Vocab κ) {a b : List (List ℓ)} (h : a.Perm b)
    (t c : κ) : totalCount f L R rowv colv a t c = totalCount f L R rowv colv b t c := by
  unfold totalCount
  rw [(h.map _).sum_eq]

theorem merge_counts (f : Formatter ℓ μ κ) (L R : Nat) {rowv colv : Vocab κ} {a b : List (List ℓ)} {m n : Mtx κ Int}
    (hm : IsCounts f L R rowv colv a m) (hn : IsCounts f L R rowv colv b n) :
    ∃ u, mergeTwo m n = .ok u ∧ IsCounts f L R rowv colv (a ++ b) u := by
  obtain ⟨u, h1, h2, h3, h4, h5, h6⟩ := mergeTwo_csr hm.valid hn.valid hm.csr hn.csr (hm.rows.trans hn.rows.symm)
  refine ⟨u, h1, h2, h3, h4.trans hm.rows, ?_, ?_, ?_⟩
  · rw [h5]
    split
    · exact hm.sorted
    · exact sortedUnion_sorted _ _
  · intro c
    have hu : c ∈ u.cols ↔ c ∈ m.cols ∨ c ∈ n.cols := by
      rw [h5]
      split
      · next h => rw [← h]; simp
      · exact sortedUnion_mem _ _ _
    rw [hu, hm.cols, hn.cols]
    by_cases hce : colv.freq = []
    · simp only [if_pos hce]
      constructor
      · rintro (⟨t, h⟩ | ⟨t, h⟩) <;> exact ⟨t, by rw [totalCount_append]; omega⟩
      · rintro ⟨t, h⟩
        rw [totalCount_append] at h
        rcases Nat.eq_zero_or_pos (totalCount f L R rowv colv a t c) with h0 | h0
        · exact Or.inr ⟨t, by omega⟩
        · exact Or.inl ⟨t, h0⟩
    · simp only [if_neg hce, or_self]
  · intro t c
    rw [h6, hm.entry, hn.entry, totalCount_append]
    push_cast
    rfl

/-- The parent's result for some files: `None` without any count, else the matrix of the counts. -/
def IsResult (f : Formatter ℓ μ κ) (L R : Nat) (rowv colv : Vocab κ) (files : List (List ℓ)) : Option (Mtx κ Int) → Prop
  | none => ∀ t c, totalCount f L R rowv colv files t c = 0
  | some m => IsCounts f L R rowv colv files m ∧ ∃ t c, 0 < totalCount f L R rowv colv files t c

theorem isCounts_zero (f : Formatter ℓ μ κ) (L R : Nat) {rowv colv : Vocab κ} {a b : List (List ℓ)}
    (h : ∀ t c, totalCount f L R rowv colv a t c = totalCount f L R rowv colv b t c) {m : Mtx κ Int}
    (hm : IsCounts f L R rowv colv a m) : IsCounts f L R rowv colv b m := by
  refine ⟨hm.valid, hm.csr, hm.rows, hm.sorted, ?_, ?_⟩
  · intro c; rw [hm.cols]; simp only [h]
  · intro t c; rw [hm.entry, h]

theorem processResults_parts (f : Formatter ℓ μ κ) (L R : Nat) {rowv colv : Vocab κ} (hrw : Constructed rowv)
    (hr : rowv.freq ≠ []) (hc : Constructed colv) (parts : List (List (List ℓ))) (done : List (List ℓ))
    (acc : Option (Mtx κ Int)) (hacc : IsResult f L R rowv colv done acc) :
    ∃ res, (parts.flatMap (fun l => colEmit rowv colv (l.foldl (colUpd f L R rowv) (colInit colv)))).foldlM mergeRes acc =
        .ok res ∧ IsResult f L R rowv colv (done ++ parts.flatten) res := by
  induction parts generalizing done acc with
  | nil => exact ⟨acc, rfl, by simpa using hacc⟩
  | cons l parts ih =>
    rw [List.flatMap_cons, List.foldlM_append, List.flatten_cons, ← List.append_assoc]
    by_cases hpos : ∃ t c, 0 < totalCount f L R rowv colv l t c
    · obtain ⟨m, h1, h2⟩ := dict2matrix_share f L R hrw hr hc l hpos
      rw [h1]
      have key : ∃ r, mergeRes acc (.sub m) = .ok r ∧ IsResult f L R rowv colv (done ++ l) r := by
        have hpos' : ∃ t c, 0 < totalCount f L R rowv colv (done ++ l) t c := by
          obtain ⟨t, c, h⟩ := hpos
          exact ⟨t, c, by rw [totalCount_append]; omega⟩
        cases acc with
        | none =>
          have h0 : ∀ t c, totalCount f L R rowv colv done t c = 0 := hacc
          exact ⟨some m, rfl, isCounts_zero f L R (fun t c => by rw [totalCount_append, h0, zero_add]) h2, hpos'⟩
        | some a =>
          obtain ⟨u, hu, hc⟩ := merge_counts f L R hacc.1 h2
          exact ⟨some u, by simp [mergeRes, hu, Except.map], hc, hpos'⟩
      obtain ⟨r, hr1, hr2⟩ := key
      obtain ⟨res, e1, e2⟩ := ih (done ++ l) r hr2
      refine ⟨res, ?_, e2⟩
      simp only [List.foldlM_cons, List.foldlM_nil, hr1]
      exact e1
    · have hz : ∀ t c, totalCount f L R rowv colv l t c = 0 := by
        intro t c
        by_contra h
        exact hpos ⟨t, c, Nat.pos_of_ne_zero h⟩
      rw [colEmit_nothing f L R hrw hr hc l hz]
      have hk : (if colv.freq = [] then [] else [ColRes.minus1] : List (ColRes κ)).foldlM mergeRes acc = .ok acc := by
        split <;> rfl
      rw [hk]
      have hr2 : IsResult f L R rowv colv (done ++ l) acc := by
        have e : ∀ t c, totalCount f L R rowv colv done t c = totalCount f L R rowv colv (done ++ l) t c := by
          intro t c; rw [totalCount_append, hz, add_zero]
        cases acc with
        | none => intro t c; rw [← e]; exact hacc t c
        | some a =>
          refine ⟨isCounts_zero f L R e hacc.1, ?_⟩
          obtain ⟨t, c, h⟩ := hacc.2
          exact ⟨t, c, by rw [← e]; exact h⟩
      obtain ⟨res, e1, e2⟩ := ih (done ++ l) acc hr2
      exact ⟨res, e1, e2⟩

theorem sum_sublist {a b : List Nat} (h : a.Sublist b) : a.sum ≤ b.sum := by
  induction h with
  | slnil => exact le_refl _
  | cons x _ ih => rw [List.sum_cons]; omega
  | cons_cons x _ ih => rw [List.sum_cons, List.sum_cons]; omega

/-! ## C04 -/

/-- **C04** for vocabularies made by the constructor, any number of workers and any interleaving without worker
deaths: `build_col_freq` succeeds; it returns `None` exactly when no wanted pair occurs in any file; otherwise it
returns the matrix with the sorted row vocabulary as rows, the column vocabulary (or, without one, the occurring
collocates) in sorted order as columns, and the sum over all files as every named entry.  The counts of a file are
those of `C10_exact`. -/
theorem C04_matrix (f : Formatter ℓ μ κ) (L R : Nat) (rowv colv : Vocab κ) (hrw : Constructed rowv)
    (hc : Constructed colv) (W : Nat) (hW : 1 ≤ W) (files : List (List ℓ)) (as : List Action)
    (s : State (List ℓ) (ColData κ) (ColRes κ)) (hcf : CrashFree as)
    (h : exec (colProg f L R rowv colv) as (start (colProg f L R rowv colv) W files) = some s) (hj : Joined s) :
    ∃ res, buildColFreq rowv s = .ok res ∧
      (res = none ↔ ∀ t c, totalCount f L R rowv colv files t c = 0) ∧
      ∀ m, res = some m → Valid m ∧ m.rows = itemList rowv ∧ m.cols.Pairwise (· ≤ ·) ∧
        (∀ c, c ∈ m.cols ↔ if colv.freq = [] then ∃ t, 0 < totalCount f L R rowv colv files t c else c ∈ colv.freq.keys) ∧
        ∀ t c, entry m t c = totalCount f L R rowv colv files t c := by
  unfold buildColFreq
  by_cases hr : rowv.freq = []
  · rw [if_pos (by unfold Vocab.len; rwa [keys_eq_nil])]
    refine ⟨none, rfl, ⟨fun _ t c => ?_, fun _ => rfl⟩, by simp⟩
    unfold totalCount
    refine if_neg ?_
    unfold Wanted
    rw [hr]
    simp
  rw [if_neg (by unfold Vocab.len; rwa [keys_eq_nil])]
  obtain ⟨parts, _, hp, he⟩ := accumulate_results hW hcf h hj
  obtain ⟨res, h1, h2⟩ := processResults_parts f L R hrw hr hc parts [] none (by intro t c; simp [totalCount])
  have e : ∀ t c, totalCount f L R rowv colv ([] ++ parts.flatten) t c = totalCount f L R rowv colv files t c :=
    fun t c => totalCount_perm f L R rowv colv (by simpa using hp) t c
  refine ⟨res, ?_, ?_, ?_⟩
  · unfold processResults readAll
    rw [he]
    exact h1
  · cases res with
    | none => exact ⟨fun _ t c => by rw [← e]; exact h2 t c, fun _ => rfl⟩
    | some m =>
      refine ⟨fun h => (nomatch h), fun hz => ?_⟩
      obtain ⟨t, c, hpos⟩ := h2.2
      rw [e, hz] at hpos
      exact absurd hpos (lt_irrefl _)
  · intro m hm
    subst hm
    have hm := isCounts_zero f L R e h2.1
    exact ⟨hm.valid, hm.rows, hm.sorted, hm.cols, hm.entry⟩

/-- **C04**: files none of whose segments has 2 to `R` lines contribute their textbook co-occurrence counts. -/
theorem C04_textbook_partial (f : Formatter ℓ μ κ) (L R : Nat) (rowv colv : Vocab κ) (files : List (List ℓ))
    (hseg : ∀ file ∈ files, ∀ xs ∈ segTexts f file, xs.length ≤ 1 ∨ R < xs.length) (t c : κ) :
    totalCount f L R rowv colv files t c =
      if Wanted rowv colv t c then (files.map (fun file => coocFile f L R file t c)).sum else 0 := by
  unfold totalCount
  split
  · congr 1
    apply List.map_congr_left
    intro file hfile
    unfold pairCount coocFile
    congr 1
    apply List.map_congr_left
    intro xs hxs
    unfold cooc
    congr 1
    apply Finset.filter_congr
    intro p hp
    simp only [Finset.mem_product, Finset.mem_range] at hp
    have := hseg file hfile xs hxs
    constructor
    · rintro ⟨_, r⟩; exact r
    · rintro ⟨r1, r⟩
      exact ⟨fun h => by rcases this with h' | h' <;> omega, r1, r⟩
  · rfl

/-- **C04**, determinism: two runs on the same files in any order, with any numbers of workers and interleavings, give
both `None`, or matrices with the same rows, the same columns and the same entries. -/
theorem C04_deterministic (f : Formatter ℓ μ κ) (L R : Nat) (rowv colv : Vocab κ) (hrw : Constructed rowv)
    (hc : Constructed colv) {W W' : Nat} (hW : 1 ≤ W) (hW' : 1 ≤ W') {files files' : List (List ℓ)}
    (hf : files.Perm files') {as as' : List Action} {s s' : State (List ℓ) (ColData κ) (ColRes κ)}
    (hcf : CrashFree as) (hcf' : CrashFree as')
    (h : exec (colProg f L R rowv colv) as (start (colProg f L R rowv colv) W files) = some s) (hj : Joined s)
    (h' : exec (colProg f L R rowv colv) as' (start (colProg f L R rowv colv) W' files') = some s') (hj' : Joined s') :
    (buildColFreq rowv s = .ok none ∧ buildColFreq rowv s' = .ok none) ∨
    ∃ m m', buildColFreq rowv s = .ok (some m) ∧ buildColFreq rowv s' = .ok (some m') ∧ m.rows = m'.rows ∧
      m.cols = m'.cols ∧ ∀ t c, entry m t c = entry m' t c := by
  obtain ⟨res, h1, h2, h3⟩ := C04_matrix f L R rowv colv hrw hc W hW files as s hcf h hj
  obtain ⟨res', h1', h2', h3'⟩ := C04_matrix f L R rowv colv hrw hc W' hW' files' as' s' hcf' h' hj'
  have e := totalCount_perm f L R rowv colv hf
  cases res with
  | none =>
    have := h2'.2 (fun t c => by rw [← e]; exact h2.1 rfl t c)
    subst this
    exact Or.inl ⟨h1, h1'⟩
  | some m =>
    cases res' with
    | none => exact absurd (h2.2 (fun t c => by rw [e]; exact h2'.1 rfl t c)) (by simp)
    | some m' =>
      obtain ⟨a1, a2, a3, a4, a5⟩ := h3 m rfl
      obtain ⟨b1, b2, b3, b4, b5⟩ := h3' m' rfl
      refine Or.inr ⟨m, m', h1, h1', a2.trans b2.symm, ?_, fun t c => by rw [a5, b5, e]⟩
      refine eq_of_perm_of_pairwise (fun a _ b _ x y => le_antisymm x y) ?_ a3 b3
      refine (List.perm_ext_iff_of_nodup a1.cols b1.cols).2 (fun c => ?_)
      rw [a4, b4]
      simp only [e]

/-- **C04**, worker deaths: whatever happens, `build_col_freq` does not fail, and no entry exceeds the sum over all
files. -/
theorem C04_deaths_never_overcount (f : Formatter ℓ μ κ) (L R : Nat) (rowv colv : Vocab κ) (hrw : Constructed rowv)
    (hc : Constructed colv) (W : Nat) (files : List (List ℓ)) (as : List Action)
    (s : State (List ℓ) (ColData κ) (ColRes κ))
    (h : exec (colProg f L R rowv colv) as (start (colProg f L R rowv colv) W files) = some s) :
    ∃ res, buildColFreq rowv s = .ok res ∧
      ∀ m, res = some m → ∀ t c, 0 ≤ entry m t c ∧ entry m t c ≤ totalCount f L R rowv colv files t c := by
  unfold buildColFreq
  by_cases hr : rowv.freq = []
  · rw [if_pos (by unfold Vocab.len; rwa [keys_eq_nil])]
    exact ⟨none, rfl, by simp⟩
  rw [if_neg (by unfold Vocab.len; rwa [keys_eq_nil])]
  obtain ⟨parts, hp, he⟩ := accumulate_le h
  obtain ⟨res, h1, h2⟩ := processResults_parts f L R hrw hr hc parts [] none (by intro t c; simp [totalCount])
  refine ⟨res, by unfold processResults readAll; rw [he]; exact h1, ?_⟩
  intro m hm t c
  subst hm
  rw [h2.1.entry]
  refine ⟨by omega, ?_⟩
  obtain ⟨l, hl, hsub⟩ := hp
  have : totalCount f L R rowv colv ([] ++ parts.flatten) t c ≤ totalCount f L R rowv colv files t c := by
    rw [List.nil_append, ← totalCount_perm f L R rowv colv hl]
    unfold totalCount
    split
    · exact sum_sublist (hsub.map _)
    · exact le_refl _
  exact_mod_cast this

/-! ### Concrete runs

Lines are numbers as in `Verif.Window.fmt`; the spans are (1, 1). -/

/-- Two workers, two files: worker 1 takes the first file, worker 0 the second. -/
def run2 : List Action :=
  [.produce, .take 1, .produce, .produce, .take 0, .work 1, .take 1, .work 0, .work 1, .produce, .take 0, .work 0]

/-- The same, but worker 1 dies on its stop marker, after it handled the first file. -/
def run2dead : List Action :=
  [.produce, .take 1, .produce, .produce, .take 0, .work 1, .take 1, .work 0, .crash 1, .produce, .take 0, .work 0]

/-- Row vocabulary of the sample: types 1 and 2. -/
def rowv12 : Vocab Nat := ⟨[(1, 3), (2, 2)], true, false⟩

def progS : Prog (List Nat) (ColData Nat) (ColRes Nat) := colProg fmt 1 1 rowv12 Vocab.empty

/-- What the worker that handled the file `[2, 1]` ends with. -/
def held21 : ColData Nat := ⟨[(2, [(1, 1)]), (1, [(2, 1)])], ⟨[(1, 1), (2, 1)], false, false⟩⟩

/-- What the worker that handled the file `[1, 2, 3]` ends with. -/
def held123 : ColData Nat := ⟨[(1, [(2, 1)]), (2, [(1, 1), (3, 1)])], ⟨[(2, 1), (1, 1), (3, 1)], false, false⟩⟩

def sub21 : Mtx Nat Int := ⟨.sp ⟨.csr, 2, 2, [((0, 1), 1), ((1, 0), 1)]⟩, [1, 2], [1, 2]⟩
def sub123 : Mtx Nat Int := ⟨.sp ⟨.csr, 2, 3, [((0, 1), 1), ((1, 0), 1), ((1, 2), 1)]⟩, [1, 2], [1, 2, 3]⟩

/-- Non-vacuity for C04: the run exists, is joined, and the merged matrix has entries from both files. -/
example : CrashFree run2 ∧ Constructed rowv12 ∧
    (∃ s, exec progS run2 (start progS 2 [[1, 2, 3], [2, 1]]) = some s ∧ Joined s ∧
      buildColFreq rowv12 s = .ok (some ⟨.sp ⟨.csr, 2, 3, [((0, 1), 2), ((1, 0), 2), ((1, 2), 1)]⟩, [1, 2], [1, 2, 3]⟩)) := by
  refine ⟨by intro i; simp [run2], ⟨by unfold Dict.WF; decide, rfl⟩,
    ⟨[], [], [.done held21, .done held123], [.sub sub123, .sub sub21]⟩, rfl, ⟨rfl, ?_⟩, rfl⟩
  intro w hw
  simp only [List.mem_cons, List.not_mem_nil, or_false] at hw
  exact Or.inl (by rcases hw with rfl | rfl <;> exact ⟨_, rfl⟩)

/-- **C04, deaths:** the matrix silently lacks counts. -/
theorem C04_false_deaths : ∃ s, exec progS run2dead (start progS 2 [[1, 2, 3], [2, 1]]) = some s ∧ Joined s ∧
    ∃ m, buildColFreq rowv12 s = .ok (some m) ∧ entry m 2 3 = 0 ∧
      totalCount fmt 1 1 rowv12 Vocab.empty [[1, 2, 3], [2, 1]] 2 3 = 1 := by
  refine ⟨⟨[], [], [.done held21, .crashed], [.sub sub21]⟩, rfl, ⟨rfl, ?_⟩, sub21, rfl, rfl, by decide⟩
  intro w hw
  simp only [List.mem_cons, List.not_mem_nil, or_false] at hw
  rcases hw with rfl | rfl
  · exact Or.inl ⟨_, rfl⟩
  · exact Or.inr rfl

/-- A vocabulary that was empty when constructed and got its items by `increment` does not filter. -/
def rowvInc : Vocab Nat := increment (increment Vocab.empty 1 3) 2 2

/-- **C04 is false for vocabularies filled by `increment`**: no worker is killed from outside, the pair (1, 2) occurs,
but the worker meets the target 3, which is no row, and its `KeyError` loses all it counted; `None` is returned. -/
theorem C04_false_unfiltered : ∃ s, exec (colProg fmt 1 1 rowvInc Vocab.empty) [.produce, .produce, .take 0, .work 0, .take 0, .work 0]
      (start (colProg fmt 1 1 rowvInc Vocab.empty) 1 [[1, 2, 3]]) = some s ∧ Joined s ∧
    buildColFreq rowvInc s = .ok none ∧ totalCount fmt 1 1 rowvInc Vocab.empty [[1, 2, 3]] 1 2 = 1 := by
  refine ⟨⟨[], [], [.done ⟨[(1, [(2, 1)]), (2, [(1, 1), (3, 1)]), (3, [(2, 1)])], ⟨[(2, 2), (1, 1), (3, 1)], false, false⟩⟩], []⟩,
    rfl, ⟨rfl, ?_⟩, rfl, by decide⟩
  intro w hw
  simp only [List.mem_cons, List.not_mem_nil, or_false] at hw
  exact Or.inl ⟨_, hw⟩

end Verif.Cooc
