import Verif.Matrix.Lemmas

/-!
Specification vocabulary for matrices (entries by name) and lemmas that connect it with the model.
-/

namespace Verif.Matrix
open Verif.Py
set_option linter.unusedSectionVars false

variable {κ ν : Type} [LinearOrder κ]

/-- A matrix as users have them: the array has one row per row item and one column per column item, no item is
repeated, and a sparse array stores at most one entry per position inside its shape. -/
structure Valid (m : Mtx κ ν) : Prop where
  nr : m.body.nr = m.rows.length
  nc : m.body.nc = m.cols.length
  rows : m.rows.Nodup
  cols : m.cols.Nodup
  sp : ∀ s, m.body = .sp s → s.WF

/-- The entry at a row name and a column name; 0 for unknown names. -/
def entry [Zero ν] (m : Mtx κ ν) (r c : κ) : ν :=
  match m.rows.idxOf? r, m.cols.idxOf? c with
  | some i, some j => m.body.val i j
  | _, _ => 0

/-- The array is a csr matrix (what the handlers and the association functions produce). -/
def IsCsr (m : Mtx κ ν) : Prop := ∃ s, m.body = .sp s ∧ s.fmt = .csr

/-- The array is a sparse matrix that can be subscripted. -/
def IsCompressed (m : Mtx κ ν) : Prop := ∃ s, m.body = .sp s ∧ s.fmt ≠ .coo

theorem lt_of_getElem? {α : Type} {l : List α} {i : Nat} {x : α} (h : l[i]? = some x) : i < l.length := by
  by_contra hc; rw [List.getElem?_eq_none (by omega)] at h; cases h

theorem idxOf?_of_nodup {l : List κ} (h : l.Nodup) {i : Nat} {x : κ} (hx : l[i]? = some x) : l.idxOf? x = some i := by
  have hi := lt_of_getElem? hx
  rw [List.idxOf?_eq_some_iff]
  rw [List.getElem?_eq_getElem hi] at hx
  refine ⟨hi, Option.some.inj hx, ?_⟩
  intro j hj heq
  have := (h.getElem_inj_iff (hi := by omega) (hj := hi)).1 (heq.trans (Option.some.inj hx).symm)
  omega

theorem idxOf?_none {l : List κ} {x : κ} (h : x ∉ l) : l.idxOf? x = none := List.idxOf?_eq_none_iff.2 h

theorem entry_of [Zero ν] {m : Mtx κ ν} (hr : m.rows.Nodup) (hc : m.cols.Nodup) {i j : Nat} {r c : κ}
    (hi : m.rows[i]? = some r) (hj : m.cols[j]? = some c) : entry m r c = m.body.val i j := by
  unfold entry
  rw [idxOf?_of_nodup hr hi, idxOf?_of_nodup hc hj]

theorem entry_row_absent [Zero ν] {m : Mtx κ ν} {r : κ} (h : r ∉ m.rows) (c : κ) : entry m r c = 0 := by
  unfold entry
  rw [idxOf?_none h]

theorem entry_col_absent [Zero ν] {m : Mtx κ ν} (r : κ) {c : κ} (h : c ∉ m.cols) : entry m r c = 0 := by
  unfold entry
  rw [idxOf?_none h]
  cases m.rows.idxOf? r <;> rfl

theorem getElem?_of_mem' {l : List κ} {x : κ} (h : x ∈ l) : ∃ i : Nat, l[i]? = some x := List.mem_iff_getElem?.1 h

theorem mkMtx_sp [AllClose ν] {s : Sp ν} {rows cols : List κ} (hr : s.nr = rows.length) (hc : s.nc = cols.length) :
    mkMtx (.sp s) rows cols = .ok ⟨.sp s, rows, cols⟩ := by
  unfold mkMtx
  rw [if_neg (by simp [Body.nr, hr]), if_neg (by simp [Body.nc, hc])]

/-- Two matrices agree on all that can be observed by name. -/
structure SameNamed [Zero ν] (m t : Mtx κ ν) : Prop where
  rows : m.rows = t.rows
  cols : m.cols = t.cols
  entries : ∀ r c, entry m r c = entry t r c

/-! ### `transform_indices` -/

theorem transformIndices_csr {s : Sp ν} (hs : s.WF) (hf : s.fmt = .csr) {cols new : List κ} (hc : cols.Nodup)
    (hn : new.Nodup) (hnc : s.nc = cols.length) (hsub : ∀ c ∈ cols, c ∈ new) :
    ∃ s', transformIndices s cols new = .ok s' ∧ s'.fmt = .csr ∧ s'.nr = s.nr ∧ s'.nc = new.length ∧ s'.WF ∧
      (∀ i j k c, cols[j]? = some c → new[k]? = some c → s'.stored i k = s.stored i j) ∧
      (∀ i k c, new[k]? = some c → c ∉ cols → s'.stored i k = none) := by
  let pos : κ → Nat := fun c => ((idOf new).get? c).getD 0
  have hpos : ∀ c ∈ cols, (idOf new).get? c = some (pos c) := by
    intro c h
    obtain ⟨i, hi⟩ := idOf_isSome (hsub c h)
    simp [pos, hi]
  have hposn : ∀ c ∈ cols, new[pos c]? = some c := fun c h => (get?_idOf hn _ _).1 (hpos c h)
  have h1 : cols.mapM (getKey (idOf new)) = .ok (cols.map pos) := by
    apply mapM_ok_of
    intro c h
    unfold getKey
    rw [hpos c h]
  let g : (Nat × Nat) × ν → (Nat × Nat) × ν := fun e => ((e.1.1, ((cols.map pos)[e.1.2]?).getD 0), e.2)
  have hcol : ∀ e ∈ s.data, ∃ c, cols[e.1.2]? = some c ∧ c ∈ cols := by
    intro e he
    have := (hs.bound e.1 (List.mem_map.2 ⟨e, he, rfl⟩)).2
    exact ⟨cols[e.1.2], List.getElem?_eq_getElem (by omega), List.getElem_mem _⟩
  have hg : ∀ e ∈ s.data, ∀ c, cols[e.1.2]? = some c → g e = ((e.1.1, pos c), e.2) := by
    intro e _ c hc'
    simp [g, List.getElem?_map, hc']
  have h2 : s.data.mapM (fun e => (getIdx (cols.map pos) e.1.2).map (fun k => ((e.1.1, k), e.2))) =
      .ok (s.data.map g) := by
    apply mapM_ok_of
    intro e he
    obtain ⟨c, hc', _⟩ := hcol e he
    simp [g, getIdx, List.getElem?_map, hc', Except.map]
  have hwf : Dict.WF (s.data.map g) := by
    unfold Dict.WF Dict.keys
    rw [List.map_map]
    have hnd := hs.nodup
    unfold Dict.WF Dict.keys List.Nodup at hnd
    unfold List.Nodup
    rw [List.pairwise_map] at hnd ⊢
    refine (List.Pairwise.and_mem.1 hnd).imp ?_
    rintro a b ⟨ha, hb, hab⟩ heq
    apply hab
    obtain ⟨ca, h1a, h2a⟩ := hcol a ha
    obtain ⟨cb, h1b, h2b⟩ := hcol b hb
    simp only [Function.comp] at heq
    rw [hg a ha ca h1a, hg b hb cb h1b] at heq
    simp only [Prod.mk.injEq] at heq
    have e1 := hposn ca h2a
    rw [heq.2, hposn cb h2b] at e1
    have : cb = ca := Option.some.inj e1
    subst this
    exact Prod.ext heq.1 (getElem?_inj_of_nodup hc h1a h1b)
  refine ⟨{ fmt := .csr, nr := s.nr, nc := new.length, data := s.data.map g }, ?_, rfl, rfl, rfl, ⟨hwf, ?_⟩, ?_, ?_⟩
  · unfold transformIndices
    simp only [hf]
    rw [h1]
    simp only [bind, Except.bind]
    rw [h2]
  · intro p hp
    unfold Dict.keys at hp
    simp only [List.map_map, List.mem_map] at hp
    obtain ⟨e, he, rfl⟩ := hp
    obtain ⟨c, hc1, hc2⟩ := hcol e he
    simp only [Function.comp, hg e he c hc1]
    exact ⟨(hs.bound e.1 (List.mem_map.2 ⟨e, he, rfl⟩)).1, lt_of_getElem? (hposn c hc2)⟩
  · intro i j k c hj hk
    have hk' : pos c = k := getElem?_inj_of_nodup hn (hposn c (List.mem_of_getElem? hj)) hk
    unfold Sp.stored
    simp only
    cases hv : Dict.get? s.data (i, j) with
    | some v =>
      rw [Dict.get?_eq_some_iff hwf, List.mem_map]
      refine ⟨((i, j), v), Dict.mem_of_get? hv, ?_⟩
      rw [hg _ (Dict.mem_of_get? hv) c hj, hk']
    | none =>
      rw [Dict.get?_eq_none_iff] at hv ⊢
      intro hm
      apply hv
      unfold Dict.keys at hm
      simp only [List.map_map, List.mem_map] at hm
      obtain ⟨e, he, heq⟩ := hm
      obtain ⟨c', hc1, hc2⟩ := hcol e he
      simp only [Function.comp, hg e he c' hc1, Prod.mk.injEq] at heq
      have e1 := hposn c' hc2
      rw [heq.2, hk] at e1
      have : c = c' := Option.some.inj e1
      subst this
      have e2 := getElem?_inj_of_nodup hc hc1 hj
      exact List.mem_map.2 ⟨e, he, Prod.ext heq.1 e2⟩
  · intro i k c hk hnc'
    unfold Sp.stored
    simp only
    rw [Dict.get?_eq_none_iff]
    intro hm
    unfold Dict.keys at hm
    simp only [List.map_map, List.mem_map] at hm
    obtain ⟨e, he, heq⟩ := hm
    obtain ⟨c', hc1, hc2⟩ := hcol e he
    simp only [Function.comp, hg e he c' hc1, Prod.mk.injEq] at heq
    have e1 := hposn c' hc2
    rw [heq.2, hk] at e1
    exact hnc' ((Option.some.inj e1) ▸ hc2)

/-- The relabelled matrix has the same named entries. -/
theorem entry_transformIndices [Zero ν] {m : Mtx κ ν} (hm : Valid m) {s s' : Sp ν} (hb : m.body = .sp s)
    {new : List κ} (hn : new.Nodup)
    (h1 : ∀ i j k c, m.cols[j]? = some c → new[k]? = some c → s'.stored i k = s.stored i j)
    (h2 : ∀ i k c, new[k]? = some c → c ∉ m.cols → s'.stored i k = none)
    {i k : Nat} {r c : κ} (hi : m.rows[i]? = some r) (hk : new[k]? = some c) : s'.val i k = entry m r c := by
  by_cases hc : c ∈ m.cols
  · obtain ⟨j, hj⟩ := getElem?_of_mem' hc
    rw [entry_of hm.rows hm.cols hi hj, hb]
    simp only [Body.val, Sp.val, h1 i j k c hj hk]
  · rw [entry_col_absent r hc]
    simp [Sp.val, h2 i k c hk hc]

/-! ### `merge_two_matrices` -/

section merge
variable [AddMonoid ν] [DecidableEq ν] [AllClose ν]

theorem mergeTwo_csr {m t : Mtx κ ν} (hm : Valid m) (ht : Valid t) (hcm : IsCsr m) (hct : IsCsr t)
    (hrows : m.rows = t.rows) :
    ∃ u, mergeTwo m t = .ok u ∧ Valid u ∧ IsCsr u ∧ u.rows = m.rows ∧
      u.cols = (if m.cols = t.cols then m.cols else sortedUnion m.cols t.cols) ∧
      ∀ r c, entry u r c = entry m r c + entry t r c := by
  obtain ⟨a, ha, hfa⟩ := hcm
  obtain ⟨b, hb, hfb⟩ := hct
  have hwa := hm.sp a ha
  have hwb := ht.sp b hb
  have hanr : a.nr = m.rows.length := by have := hm.nr; rw [ha] at this; exact this
  have hanc : a.nc = m.cols.length := by have := hm.nc; rw [ha] at this; exact this
  have hbnr : b.nr = t.rows.length := by have := ht.nr; rw [hb] at this; exact this
  have hbnc : b.nc = t.cols.length := by have := ht.nc; rw [hb] at this; exact this
  unfold mergeTwo
  by_cases hcols : m.cols = t.cols
  · rw [if_pos ⟨hrows, hcols⟩, ha, hb]
    simp only
    obtain ⟨u, hu, h1, h2, h3, h4, h5⟩ := add_ok (s := a) (t := b) (by rw [hanr, hbnr, hrows]) (by rw [hanc, hbnc, hcols])
    rw [hu]
    simp only [bind, Except.bind]
    rw [mkMtx_sp (h1.trans hanr) (h2.trans hanc)]
    refine ⟨_, rfl, ⟨h1.trans hanr, h2.trans hanc, hm.rows, hm.cols, ?_⟩, ⟨u, rfl, h4 hfa⟩, rfl, by rw [if_pos hcols], ?_⟩
    · intro s hs; cases hs; exact add_WF hwa hwb hu
    · intro r c
      by_cases hr : r ∈ m.rows
      · by_cases hc : c ∈ m.cols
        · obtain ⟨i, hi⟩ := getElem?_of_mem' hr
          obtain ⟨j, hj⟩ := getElem?_of_mem' hc
          rw [entry_of (m := ⟨.sp u, m.rows, m.cols⟩) hm.rows hm.cols hi hj, entry_of hm.rows hm.cols hi hj,
            entry_of ht.rows ht.cols (hrows ▸ hi) (hcols ▸ hj), ha, hb]
          exact val_of_stored (h5 i j)
        · rw [entry_col_absent (m := ⟨.sp u, m.rows, m.cols⟩) r hc, entry_col_absent r hc,
            entry_col_absent r (hcols ▸ hc), add_zero]
      · rw [entry_row_absent (m := ⟨.sp u, m.rows, m.cols⟩) hr, entry_row_absent hr, entry_row_absent (hrows ▸ hr),
          add_zero]
  · rw [if_neg (by tauto), if_neg (by simpa using hrows), ha, hb]
    simp only
    have hnn := sortedUnion_nodup m.cols t.cols
    obtain ⟨a', ha', hf1, hn1, hc1, hw1, hs1, hz1⟩ := transformIndices_csr hwa hfa hm.cols hnn hanc
      (fun c hc => (sortedUnion_mem _ _ _).2 (Or.inl hc))
    obtain ⟨b', hb', hf2, hn2, hc2, hw2, hs2, hz2⟩ := transformIndices_csr hwb hfb ht.cols hnn hbnc
      (fun c hc => (sortedUnion_mem _ _ _).2 (Or.inr hc))
    obtain ⟨u, hu, h1, h2, h3, h4, h5⟩ := add_ok (s := a') (t := b') (by rw [hn1, hn2, hanr, hbnr, hrows])
      (by rw [hc1, hc2])
    rw [ha', hb']
    simp only [bind, Except.bind]
    rw [hu]
    simp only
    have hur : u.nr = m.rows.length := by rw [h1, hn1, hanr]
    have huc : u.nc = (sortedUnion m.cols t.cols).length := by rw [h2, hc1]
    rw [mkMtx_sp hur huc]
    refine ⟨_, rfl, ⟨hur, huc, hm.rows, hnn, ?_⟩, ⟨u, rfl, h4 hf1⟩, rfl, by rw [if_neg hcols], ?_⟩
    · intro s hs; cases hs; exact add_WF hw1 hw2 hu
    · intro r c
      by_cases hr : r ∈ m.rows
      · by_cases hc : c ∈ sortedUnion m.cols t.cols
        · obtain ⟨i, hi⟩ := getElem?_of_mem' hr
          obtain ⟨k, hk⟩ := getElem?_of_mem' hc
          rw [entry_of (m := ⟨.sp u, m.rows, sortedUnion m.cols t.cols⟩) hm.rows hnn hi hk]
          have e1 := entry_transformIndices hm ha hnn hs1 hz1 hi hk
          have e2 := entry_transformIndices ht hb hnn hs2 hz2 (hrows ▸ hi) hk
          rw [← e1, ← e2]
          exact val_of_stored (h5 i k)
        · rw [entry_col_absent (m := ⟨.sp u, m.rows, sortedUnion m.cols t.cols⟩) r hc]
          rw [sortedUnion_mem, not_or] at hc
          rw [entry_col_absent r hc.1, entry_col_absent r hc.2, add_zero]
      · rw [entry_row_absent (m := ⟨.sp u, m.rows, sortedUnion m.cols t.cols⟩) hr, entry_row_absent hr, entry_row_absent (hrows ▸ hr), add_zero]

end merge

/-! ### Requests -/

theorem request_fst (items req : List κ) : (request items req).1 = req.filter (fun e => decide (e ∈ items)) := by
  unfold request
  simp only [contains_idOf]

theorem request_snd (items req : List κ) : (request items req).2.length = (request items req).1.length ∧
    ∀ a : Nat, (request items req).2[a]? = ((request items req).1[a]?).bind (fun e => (idOf items).get? e) := by
  have key : ∀ l : List κ, (∀ e ∈ l, e ∈ items) →
      (l.filterMap (fun e => (idOf items).get? e)).length = l.length ∧
      ∀ a : Nat, (l.filterMap (fun e => (idOf items).get? e))[a]? = (l[a]?).bind (fun e => (idOf items).get? e) := by
    intro l hl
    induction l with
    | nil => simp
    | cons e l ih =>
      obtain ⟨i, hi⟩ := idOf_isSome (hl e (by simp))
      rw [List.filterMap_cons_some hi]
      have := ih (fun e he => hl e (by simp [he]))
      refine ⟨by simp [this.1], ?_⟩
      intro a
      cases a with
      | zero => simp [hi]
      | succ a => simpa using this.2 a
  have h := key (request items req).1 (by
    intro e he; rw [request_fst] at he; simpa using (List.mem_filter.1 he).2)
  exact h

/-- The stored entry at a row name and a column name of a sparse matrix (`none`: not stored). -/
def storedEntry (m : Mtx κ ν) (r c : κ) : Option ν :=
  match m.body, m.rows.idxOf? r, m.cols.idxOf? c with
  | .sp s, some i, some j => s.stored i j
  | _, _, _ => none

theorem storedEntry_of {m : Mtx κ ν} (hr : m.rows.Nodup) (hc : m.cols.Nodup) {s : Sp ν} (hb : m.body = .sp s)
    {i j : Nat} {r c : κ} (hi : m.rows[i]? = some r) (hj : m.cols[j]? = some c) : storedEntry m r c = s.stored i j := by
  unfold storedEntry
  rw [hb, idxOf?_of_nodup hr hi, idxOf?_of_nodup hc hj]

theorem entry_eq_stored [Zero ν] {m : Mtx κ ν} {s : Sp ν} (hb : m.body = .sp s) (r c : κ) :
    entry m r c = (storedEntry m r c).getD 0 := by
  unfold entry storedEntry
  rw [hb]
  cases m.rows.idxOf? r <;> cases m.cols.idxOf? c <;> rfl

/-! ### Selecting rows and columns -/

/-- The row of the argument that row `a` of the result comes from. -/
def src (l : Option (List Nat)) (a : Nat) : Option Nat := match l with
  | some l => l[a]?
  | none => some a

theorem bodySub_sp [AllClose ν] {s : Sp ν} (hs : s.WF) (hf : s.fmt ≠ .coo) (ri ci : Option (List Nat)) :
    ∃ s', bodySub (.sp s) ri ci = .ok (.sp s') ∧ s'.WF ∧ s'.fmt = s.fmt ∧
      s'.nr = (ri.map List.length).getD s.nr ∧ s'.nc = (ci.map List.length).getD s.nc ∧
      ∀ a b, s'.stored a b = (src ri a).bind (fun i => (src ci b).bind (fun j => s.stored i j)) := by
  unfold bodySub
  cases ri with
  | none =>
    cases ci with
    | none => exact ⟨s, rfl, hs, rfl, rfl, rfl, by intro a b; simp [src]⟩
    | some cl =>
      simp only
      rw [if_neg hf]
      exact ⟨_, rfl, WF_colsAt hs cl, rfl, rfl, rfl, by intro a b; rw [stored_colsAt]; simp [src]⟩
  | some rl =>
    cases ci with
    | none =>
      simp only
      rw [if_neg hf]
      exact ⟨_, rfl, WF_rowsAt hs rl, rfl, rfl, rfl, by intro a b; rw [stored_rowsAt]; simp [src]⟩
    | some cl =>
      simp only
      rw [if_neg hf]
      refine ⟨_, rfl, WF_colsAt (WF_rowsAt hs rl) cl, rfl, rfl, rfl, ?_⟩
      intro a b; rw [stored_colsAt]
      simp only [stored_rowsAt, src]
      cases rl[a]? <;> cases cl[b]? <;> rfl

/-- Items kept by a request (`none`: no request, all are kept). -/
def kept (items : List κ) (req : Option (List κ)) : List κ := match req with
  | none => items
  | some l => l.filter (fun e => decide (e ∈ items))

theorem kept_sub {items : List κ} (req : Option (List κ)) {e : κ} (h : e ∈ kept items req) : e ∈ items := by
  cases req with
  | none => exact h
  | some l => simpa using (List.mem_filter.1 h).2

theorem request_kept (items : List κ) (req : Option (List κ)) :
    ((req.map (request items)).map Prod.fst).getD items = kept items req := by
  cases req with
  | none => rfl
  | some l => simp [kept, request_fst]

/-- Row `a` of a selection by name comes from the row that has the name. -/
theorem src_request {items : List κ} (hn : items.Nodup) (req : Option (List κ)) {a : Nat} {e : κ}
    (h : (kept items req)[a]? = some e) :
    ∃ i, src ((req.map (request items)).map Prod.snd) a = some i ∧ items[i]? = some e := by
  cases req with
  | none => exact ⟨a, rfl, h⟩
  | some l =>
    have hk : kept items (some l) = (request items l).1 := (request_fst _ _).symm
    rw [hk] at h
    have h1 := (request_snd items l).2 a
    rw [h, Option.bind_some] at h1
    have hm : e ∈ items := kept_sub (some l) (by rw [hk]; exact List.mem_of_getElem? h)
    obtain ⟨i, hi⟩ := idOf_isSome hm
    exact ⟨i, by simpa [src] using h1.trans hi, (get?_idOf hn _ _).1 hi⟩

theorem length_request {items : List κ} (req : Option (List κ)) (n : Nat) (hn : n = items.length) :
    (((req.map (request items)).map Prod.snd).map List.length).getD n = (kept items req).length := by
  cases req with
  | none => simpa [kept] using hn
  | some l =>
    have hk : kept items (some l) = (request items l).1 := (request_fst _ _).symm
    rw [hk]
    simpa using (request_snd items l).1

theorem any_request {items : List κ} (req : Option (List κ)) :
    (req.map (request items)).any (fun q => q.1.isEmpty) = true ↔ (∃ l, req = some l ∧ kept items req = []) := by
  cases req with
  | none => simp
  | some l => simp [kept, request_fst]

end Verif.Matrix
