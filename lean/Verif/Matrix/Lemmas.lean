import Verif.Matrix.Model

/-! Helper lemmas about sparse matrices, item lists and nested dicts. -/

namespace Verif.Py.Dict
variable {κ ν : Type} [DecidableEq κ]

theorem get?_append (d e : Dict κ ν) (k : κ) : get? (d ++ e) k = (get? d k).or (get? e k) := by
  induction d with
  | nil => simp
  | cons p d ih =>
    rw [List.cons_append, get?_cons, get?_cons, ih]
    split <;> simp

theorem set_of_not_mem (d : Dict κ ν) (k : κ) (v : ν) (h : k ∉ keys d) : set d k v = d ++ [(k, v)] := by
  induction d with
  | nil => rfl
  | cons p d ih =>
    rw [keys_cons, List.mem_cons, not_or] at h
    obtain ⟨a, b⟩ := p
    simp only [set]
    rw [if_neg (Ne.symm h.1), ih h.2]; rfl

theorem keys_append (d e : Dict κ ν) : keys (d ++ e) = keys d ++ keys e := List.map_append ..

/-- Inserting distinct new keys one by one appends the pairs. -/
theorem foldl_set_of_nodup (ps : List (κ × ν)) (d : Dict κ ν) (h : (keys d ++ keys ps).Nodup) :
    ps.foldl (fun d p => set d p.1 p.2) d = d ++ ps := by
  induction ps generalizing d with
  | nil => simp
  | cons p ps ih =>
    rw [keys_cons] at h
    have hp : p.1 ∉ keys d := by
      intro hc
      rw [List.nodup_append] at h
      exact h.2.2 p.1 hc p.1 (by simp) rfl
    rw [List.foldl_cons, set_of_not_mem _ _ _ hp, ih]
    · simp
    · rw [keys_append, List.append_assoc]; exact h

theorem ofPairs_of_WF (ps : List (κ × ν)) (h : WF ps) : ofPairs ps = ps := by
  have := foldl_set_of_nodup ps [] (by simpa [WF] using h)
  simpa [ofPairs] using this

theorem mem_keys_ofPairs (ps : List (κ × ν)) (k : κ) : k ∈ keys (ofPairs ps) ↔ k ∈ keys ps := by
  have : ∀ d : Dict κ ν, k ∈ keys (ps.foldl (fun d p => set d p.1 p.2) d) ↔ k ∈ keys d ∨ k ∈ keys ps := by
    induction ps with
    | nil => simp
    | cons p ps ih =>
      intro d
      rw [List.foldl_cons, ih, keys_set, keys_cons, List.mem_cons]
      split
      · next h => constructor
                  · rintro (h | h) <;> simp [h]
                  · rintro (h' | rfl | h') <;> simp_all
      · simp only [List.mem_append, List.mem_singleton]
        constructor
        · rintro ((h | h) | h) <;> simp [h]
        · rintro (h | h | h) <;> simp [h]
  simpa [ofPairs] using this []

end Verif.Py.Dict

namespace Verif.Matrix
open Verif.Py
set_option linter.unusedSectionVars false

/-! ### Lists in `Except` -/

theorem mapM_ok_iff {α β ε : Type} (f : α → Except ε β) (l : List α) (r : List β) :
    l.mapM f = .ok r ↔ List.Forall₂ (fun a b => f a = .ok b) l r := by
  induction l generalizing r with
  | nil => simp only [List.mapM_nil, pure, Except.pure, Except.ok.injEq, List.forall₂_nil_left_iff]; exact eq_comm
  | cons a l ih =>
    rw [List.mapM_cons]
    cases ha : f a with
    | error e =>
      simp only [bind, Except.bind, reduceCtorEq, false_iff]
      intro h; cases h with | cons h _ => rw [ha] at h; cases h
    | ok b =>
      cases hl : l.mapM f with
      | error e =>
        simp only [bind, Except.bind, reduceCtorEq, false_iff]
        intro h
        cases h with | cons h1 h2 => rw [(ih _).2 h2] at hl; cases hl
      | ok bs =>
        simp only [bind, Except.bind, pure, Except.pure, Except.ok.injEq]
        constructor
        · rintro rfl; exact .cons ha ((ih _).1 hl)
        · intro h
          cases h with
          | cons h1 h2 =>
            rw [ha] at h1; cases h1
            have := (ih _).2 h2
            rw [hl] at this; cases this; rfl

theorem mapM_ok_of {α β ε : Type} (f : α → Except ε β) (g : α → β) (l : List α) (h : ∀ a ∈ l, f a = .ok (g a)) :
    l.mapM f = .ok (l.map g) := by
  rw [mapM_ok_iff]
  induction l with
  | nil => exact .nil
  | cons a l ih => exact .cons (h a (by simp)) (ih (fun b hb => h b (by simp [hb])))

/-! ### Item lists -/

variable {κ ν : Type} [LinearOrder κ]

theorem keys_zipIdx (items : List κ) : Dict.keys (items.zipIdx) = items := by
  simp [Dict.keys, List.zipIdx_map_fst]

theorem idOf_of_nodup {items : List κ} (h : items.Nodup) : idOf items = items.zipIdx :=
  Dict.ofPairs_of_WF _ (by simpa [Dict.WF, keys_zipIdx] using h)

theorem mem_keys_idOf (items : List κ) (e : κ) : e ∈ Dict.keys (idOf items) ↔ e ∈ items := by
  rw [idOf, Dict.mem_keys_ofPairs, keys_zipIdx]

theorem contains_idOf (items : List κ) (e : κ) : (idOf items).contains e = decide (e ∈ items) := by
  by_cases h : e ∈ items
  · rw [decide_eq_true h]; exact (Dict.contains_iff _ _).2 ((mem_keys_idOf _ _).2 h)
  · rw [decide_eq_false h, Bool.eq_false_iff]
    intro hc; exact h ((mem_keys_idOf _ _).1 ((Dict.contains_iff _ _).1 hc))

theorem get?_idOf {items : List κ} (h : items.Nodup) (e : κ) (i : Nat) :
    (idOf items).get? e = some i ↔ items[i]? = some e := by
  rw [idOf_of_nodup h, Dict.get?_eq_some_iff (by simpa [Dict.WF, keys_zipIdx] using h),
    List.mem_zipIdx_iff_getElem?]

theorem get?_idOf_none (items : List κ) (e : κ) : (idOf items).get? e = none ↔ e ∉ items := by
  rw [Dict.get?_eq_none_iff, mem_keys_idOf]

theorem length_keys_idOf {items : List κ} (h : items.Nodup) : (Dict.keys (idOf items)).length = items.length := by
  rw [idOf_of_nodup h, keys_zipIdx]

theorem idOf_isSome {items : List κ} {e : κ} (h : e ∈ items) : ∃ i, (idOf items).get? e = some i := by
  cases hk : (idOf items).get? e with
  | some i => exact ⟨i, rfl⟩
  | none => exact absurd h ((get?_idOf_none _ _).1 hk)

theorem sortedUnion_mem (a b : List κ) (e : κ) : e ∈ sortedUnion a b ↔ e ∈ a ∨ e ∈ b := by
  rw [sortedUnion, (sortedBy_perm _ _).mem_iff, List.mem_dedup, List.mem_append]

theorem sortedUnion_nodup (a b : List κ) : (sortedUnion a b).Nodup :=
  (sortedBy_perm _ _).nodup_iff.2 (List.nodup_dedup _)

theorem sortedUnion_sorted (a b : List κ) : (sortedUnion a b).Pairwise (· ≤ ·) := sortedBy_pairwise id _

theorem getElem?_inj_of_nodup {l : List κ} (h : l.Nodup) {i j : Nat} {e : κ} (hi : l[i]? = some e)
    (hj : l[j]? = some e) : i = j := by
  have hil : i < l.length := by
    by_contra hc; rw [List.getElem?_eq_none (by omega)] at hi; cases hi
  exact (List.getElem?_inj hil h).1 (hi.trans hj.symm)

/-! ### Stored entries -/

theorem stored_transpose (s : Sp ν) (i j : Nat) : s.transpose.stored i j = s.stored j i := by
  unfold Sp.stored Sp.transpose
  simp only
  induction s.data with
  | nil => rfl
  | cons p d ih =>
    rw [List.map_cons, Dict.get?_cons, Dict.get?_cons, ih]
    obtain ⟨⟨a, b⟩, v⟩ := p
    simp only [Prod.mk.injEq]
    by_cases h1 : a = j <;> by_cases h2 : b = i <;> simp [h1, h2]

theorem get?_filterMap_row (d : Dict (Nat × Nat) ν) (i a' a c : Nat) :
    Dict.get? (d.filterMap (fun p => if p.1.1 = i then some ((a', p.1.2), p.2) else none)) (a, c) =
      if a' = a then Dict.get? d (i, c) else none := by
  induction d with
  | nil => simp
  | cons p d ih =>
    obtain ⟨⟨x, y⟩, v⟩ := p
    by_cases hx : x = i
    · subst hx
      rw [List.filterMap_cons_some (b := ((a', y), v)) (by simp), Dict.get?_cons, Dict.get?_cons, ih]
      simp only [Prod.mk.injEq, true_and]
      by_cases h1 : a' = a <;> by_cases h2 : y = c <;> simp [h1, h2]
    · rw [List.filterMap_cons_none (by simp [hx]), ih, Dict.get?_cons]
      simp [hx]

theorem stored_rowsAt (s : Sp ν) (idx : List Nat) (a c : Nat) :
    (s.rowsAt idx).stored a c = (idx[a]?).bind (fun i => s.stored i c) := by
  unfold Sp.stored Sp.rowsAt
  simp only
  have : ∀ n, Dict.get? ((idx.zipIdx n).flatMap (fun ia =>
      s.data.filterMap (fun p => if p.1.1 = ia.1 then some ((ia.2, p.1.2), p.2) else none))) (a, c) =
      if n ≤ a then (idx[a - n]?).bind (fun i => Dict.get? s.data (i, c)) else none := by
    induction idx with
    | nil => intro n; simp
    | cons i idx ih =>
      intro n
      rw [List.zipIdx_cons, List.flatMap_cons, Dict.get?_append, get?_filterMap_row, ih]
      by_cases h1 : n = a
      · subst h1
        rw [if_pos rfl, if_pos (le_refl n), if_neg (by omega)]
        simp
      · by_cases h2 : n ≤ a
        · rw [if_neg h1, if_pos (by omega), if_pos h2]
          have : a - n = (a - (n + 1)) + 1 := by omega
          rw [this, List.getElem?_cons_succ]; simp
        · rw [if_neg h1, if_neg (by omega), if_neg h2]; rfl
  have := this 0
  simpa using this

theorem stored_colsAt (s : Sp ν) (idx : List Nat) (r b : Nat) :
    (s.colsAt idx).stored r b = (idx[b]?).bind (fun j => s.stored r j) := by
  have h1 : (s.colsAt idx).stored r b = ((s.transpose.rowsAt idx).transpose).stored r b := rfl
  rw [h1, stored_transpose, stored_rowsAt]
  simp only [stored_transpose]

theorem WF_transpose {s : Sp ν} (h : s.WF) : s.transpose.WF := by
  refine ⟨?_, ?_⟩
  · have h1 : Dict.keys s.transpose.data = (Dict.keys s.data).map (fun p => (p.2, p.1)) := by
      simp [Sp.transpose, Dict.keys]
    unfold Dict.WF
    rw [h1]
    refine List.Nodup.map ?_ h.nodup
    rintro ⟨a, b⟩ ⟨c, d⟩ hh
    simp only [Prod.mk.injEq] at hh ⊢; exact ⟨hh.2, hh.1⟩
  · intro p hp
    have h1 : Dict.keys s.transpose.data = (Dict.keys s.data).map (fun p => (p.2, p.1)) := by
      simp [Sp.transpose, Dict.keys]
    rw [h1, List.mem_map] at hp
    obtain ⟨q, hq, rfl⟩ := hp
    exact ⟨(h.bound q hq).2, (h.bound q hq).1⟩

theorem keys_rowsAt (s : Sp ν) (idx : List Nat) : Dict.keys (s.rowsAt idx).data =
    idx.zipIdx.flatMap (fun ia => ((Dict.keys s.data).filter (fun p => p.1 = ia.1)).map (fun p => (ia.2, p.2))) := by
  unfold Sp.rowsAt Dict.keys
  simp only [List.map_flatMap]
  congr 1
  funext ia
  induction s.data with
  | nil => rfl
  | cons p d ih =>
    by_cases hp : p.1.1 = ia.1
    · rw [List.filterMap_cons_some (b := ((ia.2, p.1.2), p.2)) (by simp [hp])]
      simp only [List.map_cons, ih]
      rw [List.filter_cons_of_pos (by simpa using hp)]; rfl
    · rw [List.filterMap_cons_none (by simp [hp]), ih]
      simp only [List.map_cons]
      rw [List.filter_cons_of_neg (by simpa using hp)]

theorem WF_rowsAt {s : Sp ν} (h : s.WF) (idx : List Nat) : (s.rowsAt idx).WF := by
  refine ⟨?_, ?_⟩
  · unfold Dict.WF
    rw [keys_rowsAt, List.nodup_flatMap]
    refine ⟨?_, ?_⟩
    · intro ia _
      refine List.Nodup.map_on ?_ (h.nodup.filter _)
      intro x hx y hy hxy
      simp only [List.mem_filter, decide_eq_true_eq] at hx hy
      simp only [Prod.mk.injEq, true_and] at hxy
      exact Prod.ext (hx.2.trans hy.2.symm) hxy
    · have hn : (idx.zipIdx.map Prod.snd).Nodup := by
        rw [List.zipIdx_map_snd]; exact List.nodup_range'
      unfold List.Nodup at hn
      rw [List.pairwise_map] at hn
      refine hn.imp ?_
      intro a b hab x hx hx'
      simp only [List.mem_map] at hx hx'
      obtain ⟨p, _, rfl⟩ := hx
      obtain ⟨q, _, hq⟩ := hx'
      simp only [Prod.mk.injEq] at hq
      exact hab hq.1.symm
  · intro p hp
    rw [keys_rowsAt, List.mem_flatMap] at hp
    obtain ⟨ia, hia, hp⟩ := hp
    rw [List.mem_map] at hp
    obtain ⟨q, hq, rfl⟩ := hp
    rw [List.mem_filter] at hq
    have := h.bound q hq.1
    rw [List.mem_zipIdx_iff_getElem?] at hia
    refine ⟨?_, this.2⟩
    have hlt : ia.2 < idx.length := by
      by_contra hc; rw [List.getElem?_eq_none (by omega)] at hia; cases hia
    exact hlt

theorem WF_colsAt {s : Sp ν} (h : s.WF) (idx : List Nat) : (s.colsAt idx).WF := by
  have h1 := WF_transpose (WF_rowsAt (WF_transpose h) idx)
  exact ⟨h1.nodup, h1.bound⟩

theorem stored_none_of_row {s : Sp ν} (h : s.WF) {i : Nat} (hi : s.nr ≤ i) (j : Nat) : s.stored i j = none := by
  unfold Sp.stored
  rw [Dict.get?_eq_none_iff]
  intro hc; have := (h.bound _ hc).1; simp only at this; omega

theorem stored_none_of_col {s : Sp ν} (h : s.WF) (i : Nat) {j : Nat} (hj : s.nc ≤ j) : s.stored i j = none := by
  unfold Sp.stored
  rw [Dict.get?_eq_none_iff]
  intro hc; have := (h.bound _ hc).2; simp only at this; omega

/-! ### Addition -/

theorem get?_map_filter {α β : Type} [DecidableEq α] (ps : List α) (f : α → β) (q : β → Bool) (k : α) :
    Dict.get? ((ps.map (fun p => (p, f p))).filter (fun e => q e.2)) k =
      if k ∈ ps ∧ q (f k) = true then some (f k) else none := by
  induction ps with
  | nil => simp
  | cons p ps ih =>
    rw [List.map_cons]
    by_cases hq : q (f p) = true
    · rw [List.filter_cons_of_pos (by simpa using hq), Dict.get?_cons, ih]
      by_cases hp : p = k
      · subst hp; simp [hq]
      · simp [hp, Ne.symm hp]
    · rw [List.filter_cons_of_neg (by simpa using hq), ih]
      by_cases hp : p = k
      · subst hp; simp [hq]
      · simp [Ne.symm hp]

theorem stored_eq_none_of_not_mem (s : Sp ν) {i j : Nat} (h : (i, j) ∉ Dict.keys s.data) : s.stored i j = none :=
  (Dict.get?_eq_none_iff _ _).2 h

section add
variable [AddMonoid ν] [DecidableEq ν]

theorem add_ok {s t : Sp ν} (h1 : s.nr = t.nr) (h2 : s.nc = t.nc) : ∃ u, s.add t = .ok u ∧ u.nr = s.nr ∧ u.nc = s.nc ∧
    u.fmt ≠ .coo ∧ (s.fmt = .csr → u.fmt = .csr) ∧
    (∀ i j, u.stored i j = if s.val i j + t.val i j = 0 then none else some (s.val i j + t.val i j)) := by
  unfold Sp.add
  rw [if_pos ⟨h1, h2⟩]
  refine ⟨_, rfl, rfl, rfl, ?_, ?_, ?_⟩
  · dsimp only; split
    · simp
    · assumption
  · intro h; simp [h]
  · intro i j
    unfold Sp.stored
    simp only
    have hq := get?_map_filter (s.data.keys ++ (t.data.keys.filter (fun p => p ∉ s.data.keys)))
      (fun p => s.val p.1 p.2 + t.val p.1 p.2) (fun v => decide (v ≠ 0)) (i, j)
    simp only at hq
    rw [hq]
    by_cases hz : s.val i j + t.val i j = 0
    · rw [if_neg (by simp [hz]), if_pos hz]
    · have hm : (i, j) ∈ s.data.keys ++ (t.data.keys.filter (fun p => p ∉ s.data.keys)) := by
        by_contra hc
        simp only [List.mem_append, List.mem_filter, decide_eq_true_eq, not_or, not_and, not_not] at hc
        have hs : s.stored i j = none := stored_eq_none_of_not_mem s hc.1
        have ht : t.stored i j = none := stored_eq_none_of_not_mem t (fun h => hc.1 (hc.2 h))
        apply hz
        simp [Sp.val, hs, ht]
      rw [if_pos ⟨hm, by simpa using hz⟩, if_neg hz]

theorem add_WF {s t u : Sp ν} (hs : s.WF) (ht : t.WF) (h : s.add t = .ok u) : u.WF := by
  unfold Sp.add at h
  split at h
  · next hh =>
    simp only [Except.ok.injEq] at h
    subst h
    refine ⟨?_, ?_⟩
    · refine Dict.WF_filter ?_ _
      unfold Dict.WF Dict.keys
      simp only [List.map_map]
      have : (Prod.fst ∘ fun p : Nat × Nat => (p, s.val p.1 p.2 + t.val p.1 p.2)) = id := rfl
      rw [this, List.map_id, List.nodup_append]
      refine ⟨hs.nodup, ht.nodup.filter _, ?_⟩
      intro a ha b hb hab
      subst hab
      simp only [List.mem_filter, decide_eq_true_eq] at hb
      exact hb.2 ha
    · intro p hp
      have hp' := (Dict.keys_filter_sublist _ _).subset hp
      unfold Dict.keys at hp'
      simp only [List.map_map] at hp'
      have : (Prod.fst ∘ fun p : Nat × Nat => (p, s.val p.1 p.2 + t.val p.1 p.2)) = id := rfl
      rw [this, List.map_id, List.mem_append] at hp'
      rcases hp' with hp' | hp'
      · exact hs.bound p hp'
      · have := ht.bound p (List.mem_of_mem_filter hp')
        rw [hh.1, hh.2]; exact this
  · cases h

theorem val_of_stored {u s t : Sp ν} {i j : Nat}
    (h : u.stored i j = if s.val i j + t.val i j = 0 then none else some (s.val i j + t.val i j)) :
    u.val i j = s.val i j + t.val i j := by
  unfold Sp.val at *
  rw [h]; split
  · next hz => exact hz.symm
  · rfl

end add

/-! ### Nested dicts -/

/-- The value at `d[r][c]`, if any. -/
def at2 (d : Dict κ (Dict κ ν)) (r c : κ) : Option ν := (d.get? r).bind (fun row => row.get? c)

/-- No repeated key at either level. -/
structure WF2 (d : Dict κ (Dict κ ν)) : Prop where
  outer : Dict.WF d
  inner : ∀ p ∈ d, Dict.WF p.2

theorem mem_dictEntries {d : Dict κ (Dict κ ν)} (h : WF2 d) (r c : κ) (v : ν) :
    (r, c, v) ∈ dictEntries d ↔ at2 d r c = some v := by
  unfold dictEntries at2
  simp only [List.mem_flatMap, List.mem_map, Prod.mk.injEq, (sortedBy_perm _ _).mem_iff]
  constructor
  · rintro ⟨⟨r', row⟩, hr, ⟨c', v'⟩, hc, rfl, rfl, rfl⟩
    rw [Dict.get?_of_mem h.outer hr]
    exact Dict.get?_of_mem (h.inner _ hr) hc
  · intro hh
    cases hr : Dict.get? d r with
    | none => rw [hr] at hh; cases hh
    | some row =>
      rw [hr] at hh
      exact ⟨(r, row), Dict.mem_of_get? hr, (c, v), Dict.mem_of_get? hh, rfl, rfl, rfl⟩

theorem dictEntries_nodup {d : Dict κ (Dict κ ν)} (h : WF2 d) :
    ((dictEntries d).map (fun e => (e.1, e.2.1))).Nodup := by
  unfold dictEntries
  rw [List.map_flatMap, List.nodup_flatMap]
  refine ⟨?_, ?_⟩
  · intro rv hrv
    rw [(sortedBy_perm _ _).mem_iff] at hrv
    rw [List.map_map]
    have hperm := (sortedBy_perm Prod.fst rv.2).map Prod.fst
    have hn : ((sortedBy Prod.fst rv.2).map Prod.fst).Nodup := hperm.nodup_iff.2 (h.inner _ hrv)
    have : ((fun e : κ × κ × ν => (e.1, e.2.1)) ∘ fun cv : κ × ν => (rv.1, cv.1, cv.2)) =
        (fun c => (rv.1, c)) ∘ Prod.fst := rfl
    rw [this, ← List.map_map]
    exact hn.map (fun a b hab => by simpa using hab)
  · have hperm := (sortedBy_perm Prod.fst d).map Prod.fst
    have hn : ((sortedBy Prod.fst d).map Prod.fst).Nodup := hperm.nodup_iff.2 h.outer
    unfold List.Nodup at hn
    rw [List.pairwise_map] at hn
    refine hn.imp ?_
    intro a b hab x hx hx'
    simp only [List.map_map, List.mem_map] at hx hx'
    obtain ⟨p, _, rfl⟩ := hx
    obtain ⟨q, _, hq⟩ := hx'
    simp only [Function.comp, Prod.mk.injEq] at hq
    exact hab hq.1.symm

theorem cooSum_of_WF (add : ν → ν → ν) (es : List ((Nat × Nat) × ν)) (h : Dict.WF es) : cooSum add es = es := by
  unfold cooSum
  have : ∀ d : Dict (Nat × Nat) ν, (Dict.keys d ++ Dict.keys es).Nodup →
      es.foldl (cooAdd add) d = d ++ es := by
    clear h
    induction es with
    | nil => simp
    | cons e es ih =>
      intro d hd
      rw [Dict.keys_cons] at hd
      have hp : e.1 ∉ Dict.keys d := by
        intro hc
        rw [List.nodup_append] at hd
        exact hd.2.2 e.1 hc e.1 (by simp) rfl
      have hstep : cooAdd add d e = d ++ [e] := by
        unfold cooAdd
        rw [(Dict.get?_eq_none_iff _ _).2 hp]
        exact Dict.set_of_not_mem _ _ _ hp
      rw [List.foldl_cons, hstep, ih]
      · simp
      · rw [Dict.keys_append, List.append_assoc]; exact hd
  simpa using this [] (by simpa [Dict.WF] using h)

/-- All values have one type that NumPy does not change. -/
def Uniform [NPVal ν] (d : Dict κ (Dict κ ν)) : Prop :=
  ∀ r c v, at2 d r c = some v → (∀ n, NPVal.idx v n = n) ∧ ∀ r' c' w, at2 d r' c' = some w → NPVal.cast v w = w

theorem dictToSp_spec [NPVal ν] {d : Dict κ (Dict κ ν)} (hd : WF2 d) (hu : Uniform d) {rows cols : List κ}
    (hr : rows.Nodup) (hc : cols.Nodup)
    (hcov : ∀ r c v, at2 d r c = some v → r ∈ rows ∧ c ∈ cols) (hne : ∃ r c v, at2 d r c = some v) :
    ∃ s, dictToSp d rows cols = .ok s ∧ s.fmt = .csr ∧ s.nr = rows.length ∧ s.nc = cols.length ∧ s.WF ∧
      ∀ i j r c, rows[i]? = some r → cols[j]? = some c → s.stored i j = at2 d r c := by
  -- positions of the entries
  let g : κ × κ × ν → (Nat × Nat) × ν := fun e =>
    ((((idOf rows).get? e.1).getD 0, ((idOf cols).get? e.2.1).getD 0), e.2.2)
  have hloc : ∀ e ∈ dictEntries d, locate (idOf rows) (idOf cols) e = .ok (g e) := by
    rintro ⟨r, c, v⟩ he
    have := (mem_dictEntries hd r c v).1 he
    obtain ⟨h1, h2⟩ := hcov r c v this
    obtain ⟨i, hi⟩ := idOf_isSome h1
    obtain ⟨j, hj⟩ := idOf_isSome h2
    simp [locate, g, hi, hj]
  have hmap := mapM_ok_of _ g _ hloc
  -- the entries in place are distinct
  have hposn : ∀ e ∈ dictEntries d, rows[(g e).1.1]? = some e.1 ∧ cols[(g e).1.2]? = some e.2.1 := by
    rintro ⟨r, c, v⟩ he
    have := (mem_dictEntries hd r c v).1 he
    obtain ⟨h1, h2⟩ := hcov r c v this
    obtain ⟨i, hi⟩ := idOf_isSome h1
    obtain ⟨j, hj⟩ := idOf_isSome h2
    simp only [g, hi, hj, Option.getD_some]
    exact ⟨(get?_idOf hr _ _).1 hi, (get?_idOf hc _ _).1 hj⟩
  have hWF : Dict.WF ((dictEntries d).map g) := by
    unfold Dict.WF Dict.keys
    rw [List.map_map]
    have hn := dictEntries_nodup hd
    unfold List.Nodup at hn ⊢
    rw [List.pairwise_map] at hn ⊢
    refine (List.Pairwise.and_mem.1 hn).imp ?_
    rintro a b ⟨ha, hb, hab⟩ heq
    apply hab
    obtain ⟨a1, a2⟩ := hposn a ha
    obtain ⟨b1, b2⟩ := hposn b hb
    have heq' : (g a).1 = (g b).1 := heq
    rw [heq', b1] at a1
    rw [heq', b2] at a2
    exact Prod.ext (Option.some.inj a1).symm (Option.some.inj a2).symm
  obtain ⟨r0, c0, v0, h0⟩ := hne
  have hmem0 := (mem_dictEntries hd r0 c0 v0).2 h0
  cases hes : dictEntries d with
  | nil => rw [hes] at hmem0; cases hmem0
  | cons e0 rest =>
    have he0 : e0 ∈ dictEntries d := by rw [hes]; simp
    have hv0 : at2 d e0.1 e0.2.1 = some e0.2.2 := (mem_dictEntries hd _ _ _).1 he0
    obtain ⟨hidx, hcast⟩ := hu _ _ _ hv0
    have hid : ((dictEntries d).map g).map (fun e =>
        ((NPVal.idx e0.2.2 e.1.1, NPVal.idx e0.2.2 e.1.2), NPVal.cast e0.2.2 e.2)) = (dictEntries d).map g := by
      rw [List.map_map]
      apply List.map_congr_left
      rintro ⟨r, c, v⟩ he
      have := hcast r c v ((mem_dictEntries hd r c v).1 he)
      simp only [Function.comp, hidx]
      show ((_, _), NPVal.cast e0.2.2 v) = _
      rw [this]
    refine ⟨{ fmt := .csr, nr := rows.length, nc := cols.length, data := (dictEntries d).map g }, ?_, rfl, rfl, rfl,
      ⟨hWF, ?_⟩, ?_⟩
    · unfold dictToSp
      simp only
      rw [hmap, hes]
      simp only [bind, Except.bind, List.map_cons]
      rw [length_keys_idOf hr, length_keys_idOf hc]
      rw [hes] at hid hWF
      simp only [List.map_cons] at hid hWF
      have hg2 : (g e0).2 = e0.2.2 := rfl
      rw [hg2, hid, cooSum_of_WF _ _ hWF]
    · intro p hp
      unfold Dict.keys at hp
      simp only [List.map_map, List.mem_map] at hp
      obtain ⟨e, he, rfl⟩ := hp
      obtain ⟨h1, h2⟩ := hposn e he
      constructor
      · by_contra hcn; simp only [Function.comp] at hcn
        rw [List.getElem?_eq_none (by omega)] at h1; cases h1
      · by_contra hcn; simp only [Function.comp] at hcn
        rw [List.getElem?_eq_none (by omega)] at h2; cases h2
    · intro i j r c hi hj
      unfold Sp.stored
      simp only
      cases hv : at2 d r c with
      | some v =>
        rw [Dict.get?_eq_some_iff hWF, List.mem_map]
        refine ⟨(r, c, v), (mem_dictEntries hd r c v).2 hv, ?_⟩
        have := hposn _ ((mem_dictEntries hd r c v).2 hv)
        have e1 := getElem?_inj_of_nodup hr this.1 hi
        have e2 := getElem?_inj_of_nodup hc this.2 hj
        exact Prod.ext (Prod.ext e1 e2) rfl
      | none =>
        rw [Dict.get?_eq_none_iff]
        intro hmem
        unfold Dict.keys at hmem
        simp only [List.map_map, List.mem_map] at hmem
        obtain ⟨e, he, heq⟩ := hmem
        obtain ⟨h1, h2⟩ := hposn e he
        simp only [Function.comp] at heq
        rw [heq] at h1 h2
        simp only at h1 h2
        rw [hi] at h1; rw [hj] at h2
        have := (mem_dictEntries hd e.1 e.2.1 e.2.2).1 he
        rw [← Option.some.inj h1, ← Option.some.inj h2, hv] at this
        cases this

/-! ### From a sparse matrix to a nested dict -/

theorem at2_set (d : Dict κ (Dict κ ν)) (r c : κ) (v : ν) (r' c' : κ) :
    at2 (d.set r (((d.get? r).getD []).set c v)) r' c' = if r = r' ∧ c = c' then some v else at2 d r' c' := by
  unfold at2
  rw [Dict.get?_set]
  by_cases hr : r = r'
  · subst hr
    simp only [if_true, Option.bind_some, Dict.get?_set, true_and]
    split
    · rfl
    · cases Dict.get? d r <;> rfl
  · simp [hr]

theorem WF2_set {d : Dict κ (Dict κ ν)} (h : WF2 d) (r c : κ) (v : ν) :
    WF2 (d.set r (((d.get? r).getD []).set c v)) := by
  refine ⟨Dict.WF_set h.outer _ _, ?_⟩
  have hrow : Dict.WF ((Dict.get? d r).getD []) := by
    cases hg : Dict.get? d r with
    | none => exact Dict.WF_nil
    | some row => exact h.inner _ (Dict.mem_of_get? hg)
  rintro ⟨k, row⟩ hp
  have hk := Dict.get?_of_mem (Dict.WF_set h.outer _ _) hp
  rw [Dict.get?_set] at hk
  split at hk
  · cases hk; exact Dict.WF_set hrow _ _
  · exact h.inner _ (Dict.mem_of_get? hk)

theorem spToDict_spec {s : Sp ν} (hs : s.WF) {rows cols : List κ} (hr : rows.Nodup) (hc : cols.Nodup)
    (hnr : s.nr = rows.length) (hnc : s.nc = cols.length) :
    ∃ d, spToDict s rows cols = .ok d ∧ WF2 d ∧
      (∀ i j r c, rows[i]? = some r → cols[j]? = some c → at2 d r c = s.stored i j) ∧
      (∀ r c v, at2 d r c = some v → r ∈ rows ∧ c ∈ cols) := by
  unfold spToDict Sp.stored
  have hb := hs.bound
  have hwf := hs.nodup
  generalize s.data = data at hb hwf
  have key : ∀ (pre : Dict (Nat × Nat) ν) (d : Dict κ (Dict κ ν)), WF2 d →
      (∀ i j r c, rows[i]? = some r → cols[j]? = some c → at2 d r c = Dict.get? pre (i, j)) →
      (∀ r c v, at2 d r c = some v → r ∈ rows ∧ c ∈ cols) →
      (Dict.keys pre ++ Dict.keys data).Nodup →
      ∃ d', data.foldlM (putEntry rows cols) d = Except.ok d' ∧ WF2 d' ∧
        (∀ i j r c, rows[i]? = some r → cols[j]? = some c → at2 d' r c = Dict.get? (pre ++ data) (i, j)) ∧
        (∀ r c v, at2 d' r c = some v → r ∈ rows ∧ c ∈ cols) := by
    clear hwf
    induction data with
    | nil => intro pre d h1 h2 h3 _; exact ⟨d, rfl, h1, by simpa using h2, h3⟩
    | cons e data ih =>
      intro pre d h1 h2 h3 h4
      have hbe := hb e.1 (by simp)
      have e1 : rows[e.1.1]? = some rows[e.1.1] := List.getElem?_eq_getElem (by omega)
      have e2 : cols[e.1.2]? = some cols[e.1.2] := List.getElem?_eq_getElem (by omega)
      rw [List.foldlM_cons]
      simp only [putEntry, e1, e2, bind, Except.bind]
      have hnew : e.1 ∉ Dict.keys pre := by
        intro hc'
        rw [Dict.keys_cons, List.nodup_append] at h4
        exact h4.2.2 e.1 hc' e.1 (by simp) rfl
      have := ih (fun p hp => hb p (by simp [hp])) (pre ++ [e])
        (d.set rows[e.1.1] (((d.get? rows[e.1.1]).getD []).set cols[e.1.2] e.2)) (WF2_set h1 _ _ _) ?_ ?_ ?_
      · rw [List.append_assoc, List.singleton_append] at this
        exact this
      · intro i j r c hi hj
        rw [at2_set, Dict.get?_append, Dict.get?_cons, Dict.get?_nil]
        by_cases heq : rows[e.1.1] = r ∧ cols[e.1.2] = c
        · obtain ⟨q1, q2⟩ := heq
          have a1 := getElem?_inj_of_nodup hr (e1.trans (by rw [q1])) hi
          have a2 := getElem?_inj_of_nodup hc (e2.trans (by rw [q2])) hj
          have : e.1 = (i, j) := Prod.ext a1 a2
          rw [if_pos ⟨q1, q2⟩, if_pos this, ← this, (Dict.get?_eq_none_iff _ _).2 hnew]
          rfl
        · rw [if_neg heq, h2 i j r c hi hj]
          rw [if_neg]
          · simp
          · intro he
            apply heq
            have b1 : e.1.1 = i := by rw [he]
            have b2 : e.1.2 = j := by rw [he]
            subst b1; subst b2
            rw [e1] at hi; rw [e2] at hj
            exact ⟨Option.some.inj hi, Option.some.inj hj⟩
      · intro r c v hv
        rw [at2_set] at hv
        split at hv
        · next hh => rw [← hh.1, ← hh.2]; exact ⟨List.getElem_mem _, List.getElem_mem _⟩
        · exact h3 r c v hv
      · rw [Dict.keys_append, List.append_assoc]; exact h4
  have := key [] [] ⟨Dict.WF_nil, by simp⟩ (by intros; rfl) (by intro r c v h; cases h) (by simpa [Dict.WF] using hwf)
  simpa using this

end Verif.Matrix
