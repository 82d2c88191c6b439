import Verif.Matrix.Access
import Verif.Matrix.PropsSelect
import Mathlib.Data.List.Sort
import Mathlib.Data.List.Forall2

/-!
# C125: subscripts of a matrix
-/

namespace Verif.Matrix
open Verif.Py
set_option linter.unusedSectionVars false

variable {κ ν : Type} [LinearOrder κ]

/-! ### Specification -/

/-- A slice takes the position `p` of an axis of length `n`: `p` is not before the start and before the end, where
negative ends count from the end of the axis. -/
def Inside (n : Nat) (a b : Option Int) (p : Nat) : Prop :=
  (∀ x, a = some x → (if x < 0 then x + n else x) ≤ p) ∧ (∀ y, b = some y → (p : Int) < (if y < 0 then y + n else y))

instance (n : Nat) (a b : Option Int) (p : Nat) : Decidable (Inside n a b p) :=
  decidable_of_iff (a.all (fun x : Int => decide ((if x < 0 then x + n else x) ≤ p)) = true ∧
      b.all (fun y : Int => decide ((p : Int) < (if y < 0 then y + n else y))) = true)
    (by unfold Inside; cases a <;> cases b <;> simp)

/-- The items that a subscript means. -/
inductive Meant (items : List κ) : Idx κ → List κ → Prop
  | name {k : κ} : k ∈ items → Meant items (.name k) [k]
  | front {n : Nat} {k : κ} : items[n]? = some k → Meant items (.pos n) [k]
  | back {n : Nat} {k : κ} : items.reverse[n]? = some k → Meant items (.pos (-(n + 1 : Int))) [k]
  | slice {a b : Option Int} :
    Meant items (.slice a b) ((items.zipIdx.filter (fun p => decide (Inside items.length a b p.2))).map Prod.fst)

/-- A subscript that stands for one item, not for a range. -/
def single : Idx κ → Bool
  | .name _ => true
  | .pos _ => true
  | _ => false

/-- All numbers of a result, row by row. -/
def Arr.cells : Arr ν → List ν
  | .scalar v => [v]
  | .vec l => l
  | .mat l => l.flatten

/-- The number of dimensions of a result. -/
def Arr.ndim : Arr ν → Nat
  | .scalar _ => 0
  | .vec _ => 1
  | .mat _ => 2

/-- The matrix can be subscripted: an array, or a sparse matrix in a compressed format. -/
def Readable (m : Mtx κ ν) : Prop := ∀ s, m.body = .sp s → s.fmt ≠ .coo

/-! ### Lemmas -/

theorem clampEnd_le (n : Nat) (z : Int) : z < 0 ∨ clampEnd n z ≤ n := by
  unfold clampEnd
  by_cases h : z < 0
  · exact Or.inl h
  · rw [if_neg h]; right; exact Nat.min_le_right _ _

theorem clampEnd_le' (n : Nat) (z : Int) : clampEnd n z ≤ n := by
  unfold clampEnd
  split <;> omega

theorem spanAt_eq (n : Nat) (a b : Option Int) :
    spanAt n a b = (List.range n).filter (fun p => decide (Inside n a b p)) := by
  have hmem : ∀ p, p ∈ spanAt n a b ↔ p < n ∧ Inside n a b p := by
    intro p
    unfold spanAt Inside
    simp only [List.mem_range'_1]
    cases a with
    | none => cases b with
      | none => simp
      | some y =>
        have hy := clampEnd_le' n y
        simp only [Option.map_none, Option.getD_none, Option.map_some, Option.getD_some, reduceCtorEq, false_implies,
          implies_true, Option.some.injEq, forall_eq', true_and]
        unfold clampEnd at hy ⊢
        by_cases h : y < 0
        · simp only [if_pos h] at hy ⊢; omega
        · simp only [if_neg h] at hy ⊢; omega
    | some x =>
      have hx := clampEnd_le' n x
      cases b with
      | none =>
        simp only [Option.map_none, Option.getD_none, Option.map_some, Option.getD_some, reduceCtorEq, false_implies,
          implies_true, Option.some.injEq, forall_eq', and_true]
        unfold clampEnd at hx ⊢
        by_cases h : x < 0
        · simp only [if_pos h] at hx ⊢; omega
        · simp only [if_neg h] at hx ⊢; omega
      | some y =>
        have hy := clampEnd_le' n y
        simp only [Option.map_some, Option.getD_some, Option.some.injEq, forall_eq']
        unfold clampEnd at hx hy ⊢
        by_cases h : x < 0 <;> by_cases h' : y < 0 <;>
          simp only [h, h', if_true, if_false] at hx hy ⊢ <;> omega
  refine List.Pairwise.eq_of_mem_iff (r := (· < ·)) ?_ ?_ ?_
  · exact List.pairwise_lt_range' 
  · exact List.Pairwise.filter _ List.pairwise_lt_range
  · intro p
    rw [hmem]
    simp [List.mem_filter]

/-- Positions and items at these positions. -/
def At (items : List κ) (ps : List Nat) (ks : List κ) : Prop := List.Forall₂ (fun p k => items[p]? = some k) ps ks

theorem filter_zipIdx_at (items : List κ) (f : Nat → Bool) :
    At items ((List.range items.length).filter f) ((items.zipIdx.filter (fun p => f p.2)).map Prod.fst) := by
  have h1 : (List.range items.length) = items.zipIdx.map Prod.snd := by
    simp [List.range_eq_range']
  unfold At
  rw [h1, List.filter_map, List.forall₂_map_left_iff, List.forall₂_map_right_iff]
  have : (fun p : κ × Nat => f p.2) = (f ∘ Prod.snd) := rfl
  rw [this]
  rw [List.forall₂_same]
  intro p hp
  have := (List.mem_filter.1 hp).1
  rw [List.mem_zipIdx_iff_getElem?] at this
  exact this

theorem at_all (items : List κ) : At items (List.range items.length) items := by
  have h := filter_zipIdx_at items (fun _ => true)
  simpa using h

theorem axisAt_front {n i : Nat} (h : i < n) : axisAt n (i : Int) = .ok i := by
  unfold axisAt
  rw [if_pos (by omega), if_pos (by omega)]
  simp

theorem axisAt_back {n i : Nat} (h : i < n) : axisAt n (-(i + 1 : Int)) = .ok (n - 1 - i) := by
  unfold axisAt
  rw [if_neg (by omega), if_pos (by omega)]
  congr 1
  omega

theorem axisAt_out {n : Nat} {z : Int} (h : z < -n ∨ n ≤ z) : axisAt n z = .error .indexError := by
  unfold axisAt
  by_cases hz : 0 ≤ z
  · rw [if_pos hz, if_neg (by omega)]
  · rw [if_neg hz, if_neg (by omega)]

/-- What a subscript that means something is turned into. -/
theorem sub_spec {items : List κ} (hn : items.Nodup) {i : Idx κ} {ks : List κ} (h : Meant items i ks) :
    ∃ sub ps, subOf (idOf items) i = .ok sub ∧ soleOf (idOf items) i = .ok sub ∧
      subAt items.length sub = .ok ps ∧ At items ps ks ∧
      (single i = true → ∃ z p, sub = .at z ∧ axisAt items.length z = .ok p ∧ ps = [p]) ∧
      (single i = false → ∃ a b, sub = .span a b ∧ ps = spanAt items.length a b) := by
  cases h with
  | @name k hk =>
    obtain ⟨p, hp⟩ := idOf_isSome hk
    have hi := (get?_idOf hn _ _).1 hp
    have hlt := lt_of_getElem? hi
    refine ⟨.at p, [p], ?_, ?_, ?_, ?_, ?_, ?_⟩
    · simp [subOf, getKey, hp, Except.map]
    · simp [soleOf, getKey, hp, Except.map]
    · simp [subAt, axisAt_front hlt, Except.map]
    · exact List.Forall₂.cons hi List.Forall₂.nil
    · intro _; exact ⟨p, p, rfl, axisAt_front hlt, rfl⟩
    · intro hs; cases hs
  | @front n k hk =>
    have hlt := lt_of_getElem? hk
    refine ⟨.at n, [n], rfl, rfl, ?_, ?_, ?_, ?_⟩
    · simp [subAt, axisAt_front hlt, Except.map]
    · exact List.Forall₂.cons hk List.Forall₂.nil
    · intro _; exact ⟨n, n, rfl, axisAt_front hlt, rfl⟩
    · intro hs; cases hs
  | @back n k hk =>
    have hlt := lt_of_getElem? hk
    rw [List.length_reverse] at hlt
    rw [List.getElem?_reverse hlt] at hk
    refine ⟨.at _, [items.length - 1 - n], rfl, rfl, ?_, ?_, ?_, ?_⟩
    · simp only [subAt, axisAt_back hlt, Except.map]
    · exact List.Forall₂.cons hk List.Forall₂.nil
    · intro _; exact ⟨_, _, rfl, axisAt_back hlt, rfl⟩
    · intro hs; cases hs
  | @slice a b =>
    refine ⟨.span a b, spanAt items.length a b, rfl, rfl, rfl, ?_, ?_, ?_⟩
    · rw [spanAt_eq]
      exact filter_zipIdx_at items (fun p => decide (Inside items.length a b p))
    · intro hs; cases hs
    · intro _; exact ⟨a, b, rfl, rfl⟩

theorem at_length {items : List κ} {ps : List Nat} {ks : List κ} (h : At items ps ks) : ps.length = ks.length :=
  List.Forall₂.length_eq h

theorem at_map {items : List κ} {ps : List Nat} {ks : List κ} (h : At items ps ks) {β : Type} {f : Nat → β} {g : κ → β}
    (hfg : ∀ p k, items[p]? = some k → f p = g k) : ps.map f = ks.map g := by
  unfold At at h
  induction h with
  | nil => rfl
  | cons h1 _ ih => simp [hfg _ _ h1, ih]

theorem dropRow_map {α : Type} (ks : List α) (f : α → List ν) :
    dropRow (ks.map f) = if ks.length = 1 then .vec (ks.flatMap f) else .mat (ks.map f) := by
  match ks with
  | [] => rfl
  | [k] => simp [dropRow]
  | _ :: _ :: _ => simp [dropRow]

/-! ### C125 -/

/-- **C125** (sparse matrices).  Subscripting a sparse matrix with names, positions (negative ones count from the end)
and slices: two single subscripts give the named entry; otherwise all entries of the rows and columns meant come back,
as an array of one dimension if there is exactly one row, and else as an array of two dimensions. -/
theorem C125_sparse_partial [Zero ν] {m : Mtx κ ν} (hm : Valid m) {s : Sp ν} (hb : m.body = .sp s) (hf : s.fmt ≠ .coo)
    {r c : Idx κ} {R C : List κ} (hr : Meant m.rows r R) (hc : Meant m.cols c C) :
    (∀ x y, single r = true → single c = true → R = [x] → C = [y] → getItem m (.pair r c) = .ok (.scalar (entry m x y))) ∧
    (¬ (single r = true ∧ single c = true) → ∀ x, R = [x] → getItem m (.pair r c) = .ok (.vec (C.map (entry m x)))) ∧
    (¬ (single r = true ∧ single c = true) → R.length ≠ 1 →
      getItem m (.pair r c) = .ok (.mat (R.map (fun x => C.map (entry m x))))) ∧
    (∀ x, R = [x] → getItem m (.one r) = .ok (.vec (m.cols.map (entry m x)))) ∧
    (R.length ≠ 1 → getItem m (.one r) = .ok (.mat (R.map (fun x => m.cols.map (entry m x))))) := by
  obtain ⟨i, ps, hi, hi', hps, hpr, hs1, hs2⟩ := sub_spec hm.rows hr
  obtain ⟨j, qs, hj, -, hqs, hqc, ht1, ht2⟩ := sub_spec hm.cols hc
  have hnr : s.nr = m.rows.length := by have := hm.nr; rw [hb] at this; exact this
  have hnc : s.nc = m.cols.length := by have := hm.nc; rw [hb] at this; exact this
  have hval : ∀ p k, m.rows[p]? = some k → ∀ q l, m.cols[q]? = some l → s.val p q = entry m k l := by
    intro p k hp q l hq
    rw [entry_of hm.rows hm.cols hp hq, hb]; rfl
  have hrow : ∀ p k, m.rows[p]? = some k → qs.map (s.val p) = C.map (entry m k) := by
    intro p k hp
    exact at_map hqc (hval p k hp)
  have hrow' : ∀ p k, m.rows[p]? = some k → (List.range s.nc).map (s.val p) = m.cols.map (entry m k) := by
    intro p k hp
    rw [hnc]
    exact at_map (at_all m.cols) (hval p k hp)
  have hbody : ps.map (fun p => qs.map (s.val p)) = R.map (fun x => C.map (entry m x)) := at_map hpr hrow
  have hbody' : ps.map (fun p => (List.range s.nc).map (s.val p)) = R.map (fun x => m.cols.map (entry m x)) :=
    at_map hpr hrow'
  have hpair : ¬ (single r = true ∧ single c = true) →
      getItem m (.pair r c) = .ok (dropRow (R.map (fun x => C.map (entry m x)))) := by
    intro hns
    have hgen : s.getPair i j = .ok (dropRow (R.map (fun x => C.map (entry m x)))) := by
      unfold Sp.getPair
      rw [if_neg hf]
      have key : (do
          let rs ← subAt s.nr i
          let cs ← subAt s.nc j
          (Except.ok (dropRow (rs.map (fun r => cs.map (s.val r)))) : Except Err (Arr ν))) =
          .ok (dropRow (R.map (fun x => C.map (entry m x)))) := by
        rw [hnr, hnc, hps, hqs]
        simp only [bind, Except.bind]
        rw [hbody]
      cases i with
      | span a b => exact key
      | «at» z =>
        cases j with
        | span a b => exact key
        | «at» w =>
          exfalso
          apply hns
          constructor
          · by_contra hh
            obtain ⟨_, _, h1, _⟩ := hs2 (by simpa using hh)
            cases h1
          · by_contra hh
            obtain ⟨_, _, h1, _⟩ := ht2 (by simpa using hh)
            cases h1
    unfold getItem
    simp only [hi, hj, bind, Except.bind, hb, Body.getPair]
    exact hgen
  have hone : getItem m (.one r) = .ok (dropRow (R.map (fun x => m.cols.map (entry m x)))) := by
    unfold getItem
    simp only [hi', bind, Except.bind, hb, Body.getSole]
    unfold Sp.getSole
    rw [if_neg hf, hnr, hps]
    simp only [bind, Except.bind]
    rw [hbody']
  refine ⟨?_, ?_, ?_, ?_, ?_⟩
  · intro x y h1 h2 hR hC
    obtain ⟨z, p, rfl, hz, rfl⟩ := hs1 h1
    obtain ⟨w, q, rfl, hw, rfl⟩ := ht1 h2
    subst hR hC
    have hp : m.rows[p]? = some x := by cases hpr with | cons h _ => exact h
    have hq : m.cols[q]? = some y := by cases hqc with | cons h _ => exact h
    unfold getItem
    simp only [hi, hj, bind, Except.bind, hb, Body.getPair]
    unfold Sp.getPair
    rw [if_neg hf]
    simp only [hnr, hnc, hz, hw, bind, Except.bind]
    rw [hval p x hp q y hq]
  · intro hns x hR
    rw [hpair hns, dropRow_map]
    subst hR
    simp
  · intro hns hR
    rw [hpair hns, dropRow_map, if_neg hR]
  · intro x hR
    rw [hone, dropRow_map]
    subst hR
    simp
  · intro hR
    rw [hone, dropRow_map, if_neg hR]

/-- **C125** (arrays).  Subscripting an array: an axis with a single subscript disappears, an axis with a slice stays. -/
theorem C125_dense [Zero ν] {m : Mtx κ ν} (hm : Valid m) {d : Dn ν} (hb : m.body = .dn d)
    {r c : Idx κ} {R C : List κ} (hr : Meant m.rows r R) (hc : Meant m.cols c C) :
    (∀ x y, single r = true → single c = true → R = [x] → C = [y] → getItem m (.pair r c) = .ok (.scalar (entry m x y))) ∧
    (∀ x, single r = true → single c = false → R = [x] → getItem m (.pair r c) = .ok (.vec (C.map (entry m x)))) ∧
    (∀ y, single r = false → single c = true → C = [y] →
      getItem m (.pair r c) = .ok (.vec (R.map (fun x => entry m x y)))) ∧
    (single r = false → single c = false → getItem m (.pair r c) = .ok (.mat (R.map (fun x => C.map (entry m x))))) ∧
    (∀ x, single r = true → R = [x] → getItem m (.one r) = .ok (.vec (m.cols.map (entry m x)))) ∧
    (single r = false → getItem m (.one r) = .ok (.mat (R.map (fun x => m.cols.map (entry m x))))) := by
  obtain ⟨i, ps, hi, hi', hps, hpr, hs1, hs2⟩ := sub_spec hm.rows hr
  obtain ⟨j, qs, hj, -, hqs, hqc, ht1, ht2⟩ := sub_spec hm.cols hc
  have hnr : d.nr = m.rows.length := by have := hm.nr; rw [hb] at this; exact this
  have hnc : d.nc = m.cols.length := by have := hm.nc; rw [hb] at this; exact this
  have hval : ∀ p k, m.rows[p]? = some k → ∀ q l, m.cols[q]? = some l → d.elem p q = entry m k l := by
    intro p k hp q l hq
    rw [entry_of hm.rows hm.cols hp hq, hb]; rfl
  have hrow : ∀ p k, m.rows[p]? = some k → qs.map (d.elem p) = C.map (entry m k) :=
    fun p k hp => at_map hqc (hval p k hp)
  have hrow' : ∀ p k, m.rows[p]? = some k → (List.range d.nc).map (d.elem p) = m.cols.map (entry m k) := by
    intro p k hp
    rw [hnc]
    exact at_map (at_all m.cols) (hval p k hp)
  have hg : getItem m (.pair r c) = d.getPair i j := by
    unfold getItem
    simp only [hi, hj, bind, Except.bind, hb, Body.getPair]
  have hg' : getItem m (.one r) = d.getSole i := by
    unfold getItem
    simp only [hi', bind, Except.bind, hb, Body.getSole]
  rw [hg, hg']
  refine ⟨?_, ?_, ?_, ?_, ?_, ?_⟩
  · intro x y h1 h2 hR hC
    obtain ⟨z, p, rfl, hz, rfl⟩ := hs1 h1
    obtain ⟨w, q, rfl, hw, rfl⟩ := ht1 h2
    subst hR hC
    have hp : m.rows[p]? = some x := by cases hpr with | cons h _ => exact h
    have hq : m.cols[q]? = some y := by cases hqc with | cons h _ => exact h
    simp only [Dn.getPair, hnr, hnc, hz, hw, bind, Except.bind]
    rw [hval p x hp q y hq]
  · intro x h1 h2 hR
    obtain ⟨z, p, rfl, hz, rfl⟩ := hs1 h1
    obtain ⟨a, b, rfl, rfl⟩ := ht2 h2
    subst hR
    have hp : m.rows[p]? = some x := by cases hpr with | cons h _ => exact h
    simp only [Dn.getPair, hnr, hnc, hz, bind, Except.bind]
    rw [hrow p x hp]
  · intro y h1 h2 hC
    obtain ⟨a, b, rfl, rfl⟩ := hs2 h1
    obtain ⟨w, q, rfl, hw, rfl⟩ := ht1 h2
    subst hC
    have hq : m.cols[q]? = some y := by cases hqc with | cons h _ => exact h
    simp only [Dn.getPair, hnr, hnc, hw, bind, Except.bind]
    rw [at_map hpr (fun p k hp => hval p k hp q y hq)]
  · intro h1 h2
    obtain ⟨a, b, rfl, rfl⟩ := hs2 h1
    obtain ⟨a', b', rfl, rfl⟩ := ht2 h2
    simp only [Dn.getPair, hnr, hnc]
    rw [at_map hpr hrow]
  · intro x h1 hR
    obtain ⟨z, p, rfl, hz, rfl⟩ := hs1 h1
    subst hR
    have hp : m.rows[p]? = some x := by cases hpr with | cons h _ => exact h
    simp only [Dn.getSole, hnr, hz, bind, Except.bind]
    rw [hrow' p x hp]
  · intro h1
    obtain ⟨a, b, rfl, rfl⟩ := hs2 h1
    simp only [Dn.getSole, hnr]
    rw [at_map hpr hrow']

theorem single_meant {items : List κ} {i : Idx κ} {ks : List κ} (h : Meant items i ks) (hs : single i = true) :
    ∃ k, ks = [k] := by
  cases h with
  | name h => exact ⟨_, rfl⟩
  | front h => exact ⟨_, rfl⟩
  | back h => exact ⟨_, rfl⟩
  | slice => cases hs

theorem flatten_map {α : Type} (l : List α) (f : α → List ν) : (l.map f).flatten = l.flatMap f := by
  rw [List.flatMap_def]

theorem flatten_singles (l : List ν) : (l.map (fun v => [v])).flatten = l := by
  induction l with
  | nil => rfl
  | cons x l ih => simp [ih]

theorem getItem_pair [Zero ν] {m : Mtx κ ν} {r c : Idx κ} {i j : Sub} (hi : subOf (idOf m.rows) r = .ok i)
    (hj : subOf (idOf m.cols) c = .ok j) : getItem m (.pair r c) = m.body.getPair i j := by
  unfold getItem
  simp only [hi, hj, bind, Except.bind]

/-- **C125** (both kinds, in one).  Whatever the storage, the numbers that come back are the entries of the rows and
columns meant, row by row. -/
theorem C125_cells [Zero ν] {m : Mtx κ ν} (hm : Valid m) (hrd : Readable m) {r : Idx κ} {R : List κ}
    (hr : Meant m.rows r R) :
    (∀ c C, Meant m.cols c C →
      ∃ a, getItem m (.pair r c) = .ok a ∧ a.cells = R.flatMap (fun x => C.map (entry m x))) ∧
    ∃ a, getItem m (.one r) = .ok a ∧ a.cells = R.flatMap (fun x => m.cols.map (entry m x)) := by
  have hall : Meant m.cols (.slice none none) ((m.cols.zipIdx.filter
      (fun p => decide (Inside m.cols.length none none p.2))).map Prod.fst) := .slice
  cases hb : m.body with
  | sp s =>
    have hf := hrd s hb
    constructor
    · intro c C hc
      obtain ⟨h1, h2, h3, -, -⟩ := C125_sparse_partial hm hb hf hr hc
      by_cases hs : single r = true ∧ single c = true
      · obtain ⟨x, rfl⟩ := single_meant hr hs.1
        obtain ⟨y, rfl⟩ := single_meant hc hs.2
        exact ⟨_, h1 x y hs.1 hs.2 rfl rfl, by simp [Arr.cells]⟩
      · by_cases hR : R.length = 1
        · obtain ⟨x, rfl⟩ := List.length_eq_one_iff.1 hR
          exact ⟨_, h2 hs x rfl, by simp [Arr.cells]⟩
        · exact ⟨_, h3 hs hR, flatten_map _ _⟩
    · obtain ⟨-, -, -, h4, h5⟩ := C125_sparse_partial hm hb hf hr hall
      by_cases hR : R.length = 1
      · obtain ⟨x, rfl⟩ := List.length_eq_one_iff.1 hR
        exact ⟨_, h4 x rfl, by simp [Arr.cells]⟩
      · exact ⟨_, h5 hR, flatten_map _ _⟩
  | dn d =>
    constructor
    · intro c C hc
      obtain ⟨h1, h2, h3, h4, -, -⟩ := C125_dense hm hb hr hc
      cases hs : single r with
      | true =>
        obtain ⟨x, rfl⟩ := single_meant hr hs
        cases ht : single c with
        | true =>
          obtain ⟨y, rfl⟩ := single_meant hc ht
          exact ⟨_, h1 x y hs ht rfl rfl, by simp [Arr.cells]⟩
        | false => exact ⟨_, h2 x hs ht rfl, by simp [Arr.cells]⟩
      | false =>
        cases ht : single c with
        | true =>
          obtain ⟨y, rfl⟩ := single_meant hc ht
          refine ⟨_, h3 y hs ht rfl, ?_⟩
          simp only [Arr.cells, List.map_cons, List.map_nil]
          have h := flatten_singles (R.map (fun x => entry m x y))
          rw [List.map_map] at h
          rw [List.flatMap_def]
          exact h.symm
        | false => exact ⟨_, h4 hs ht, flatten_map _ _⟩
    · obtain ⟨-, -, -, -, h5, h6⟩ := C125_dense hm hb hr hall
      cases hs : single r with
      | true =>
        obtain ⟨x, rfl⟩ := single_meant hr hs
        exact ⟨_, h5 x hs rfl, by simp [Arr.cells]⟩
      | false => exact ⟨_, h6 hs, flatten_map _ _⟩

/-- **C125** (refusals).  An unknown name is a `KeyError`, a position beyond either end an `IndexError`, anything else
(a list, a NumPy integer) a `ValueError`, or `NotImplementedError` for a sole list; tuples of other lengths are refused;
a coo matrix gives `TypeError` whatever legal subscripts are used. -/
theorem C125_refused [Zero ν] {m : Mtx κ ν} (hm : Valid m) :
    (∀ k, k ∉ m.rows → (∀ c, getItem m (.pair (.name k) c) = .error .keyError) ∧ getItem m (.one (.name k)) = .error .keyError) ∧
    (∀ k r R, k ∉ m.cols → Meant m.rows r R → getItem m (.pair r (.name k)) = .error .keyError) ∧
    (∀ z : Int, Readable m → (z < -m.rows.length ∨ m.rows.length ≤ z) →
      getItem m (.one (.pos z)) = .error .indexError ∧
      ∀ c C, Meant m.cols c C → getItem m (.pair (.pos z) c) = .error .indexError) ∧
    (∀ z : Int, Readable m → (z < -m.cols.length ∨ m.cols.length ≤ z) →
      ∀ r R, Meant m.rows r R → getItem m (.pair r (.pos z)) = .error .indexError) ∧
    (∀ c, getItem m (.pair .other c) = .error .valueError ∧ getItem m (.pair .list c) = .error .valueError) ∧
    (∀ r R, Meant m.rows r R →
      getItem m (.pair r .other) = .error .valueError ∧ getItem m (.pair r .list) = .error .valueError) ∧
    (getItem m (.one .other) = .error .valueError ∧ getItem m (.one .list) = .error .notImplemented) ∧
    (∀ n, getItem m (.tuple n) = .error .valueError) ∧
    (∀ r R, ¬ Readable m → Meant m.rows r R → getItem m (.one r) = .error .typeError ∧
      ∀ c C, Meant m.cols c C → getItem m (.pair r c) = .error .typeError) := by
  refine ⟨?_, ?_, ?_, ?_, ?_, ?_, ?_, ?_, ?_⟩
  · intro k hk
    have h := (get?_idOf_none m.rows k).2 hk
    constructor
    · intro c
      simp [getItem, subOf, getKey, h, Except.map, bind, Except.bind]
    · simp [getItem, soleOf, getKey, h, Except.map, bind, Except.bind]
  · intro k r R hk hr
    obtain ⟨i, ps, hi, -⟩ := sub_spec hm.rows hr
    have h := (get?_idOf_none m.cols k).2 hk
    simp only [getItem, hi, bind, Except.bind]
    simp [subOf, getKey, h, Except.map]
  · intro z hrd hz
    have hnr := hm.nr
    constructor
    · simp only [getItem, soleOf, bind, Except.bind]
      cases hb : m.body with
      | sp s =>
        rw [hb] at hnr
        have hnr : s.nr = m.rows.length := hnr
        simp [Body.getSole, Sp.getSole, if_neg (hrd s hb), subAt, hnr, axisAt_out hz, Except.map, bind, Except.bind]
      | dn d =>
        rw [hb] at hnr
        have hnr : d.nr = m.rows.length := hnr
        simp [Body.getSole, Dn.getSole, hnr, axisAt_out hz, bind, Except.bind]
    · intro c C hc
      obtain ⟨j, qs, hj, -, hqs, -, ht1, ht2⟩ := sub_spec hm.cols hc
      rw [getItem_pair (r := .pos z) rfl hj]
      cases hb : m.body with
      | sp s =>
        rw [hb] at hnr
        have hnr : s.nr = m.rows.length := hnr
        cases j <;> simp [Body.getPair, Sp.getPair, if_neg (hrd s hb), subAt, hnr, axisAt_out hz, Except.map, bind,
          Except.bind]
      | dn d =>
        rw [hb] at hnr
        have hnr : d.nr = m.rows.length := hnr
        cases j <;> simp [Body.getPair, Dn.getPair, hnr, axisAt_out hz, bind, Except.bind]
  · intro z hrd hz r R hr
    obtain ⟨i, ps, hi, -, hps, -, hs1, hs2⟩ := sub_spec hm.rows hr
    have hnr := hm.nr
    have hnc := hm.nc
    rw [getItem_pair (c := .pos z) hi rfl]
    cases hb : m.body with
    | sp s =>
      rw [hb] at hnr hnc
      have hnr : s.nr = m.rows.length := hnr
      have hnc : s.nc = m.cols.length := hnc
      simp only [Body.getPair, Sp.getPair, if_neg (hrd s hb), hnr, hnc]
      cases hs : single r with
      | true =>
        obtain ⟨w, p, rfl, hw, rfl⟩ := hs1 hs
        simp [hw, axisAt_out hz, bind, Except.bind]
      | false =>
        obtain ⟨a, b, rfl, rfl⟩ := hs2 hs
        simp [subAt, axisAt_out hz, Except.map, bind, Except.bind]
    | dn d =>
      rw [hb] at hnr hnc
      have hnr : d.nr = m.rows.length := hnr
      have hnc : d.nc = m.cols.length := hnc
      simp only [Body.getPair]
      cases hs : single r with
      | true =>
        obtain ⟨w, p, rfl, hw, rfl⟩ := hs1 hs
        simp [Dn.getPair, hnr, hnc, hw, axisAt_out hz, bind, Except.bind]
      | false =>
        obtain ⟨a, b, rfl, rfl⟩ := hs2 hs
        simp [Dn.getPair, hnc, axisAt_out hz, bind, Except.bind]
  · intro c
    exact ⟨rfl, rfl⟩
  · intro r R hr
    obtain ⟨i, ps, hi, -⟩ := sub_spec hm.rows hr
    constructor
    · have : subOf (idOf m.cols) (.other : Idx κ) = .error .valueError := rfl
      simp only [getItem, hi, this, bind, Except.bind]
    · have : subOf (idOf m.cols) (.list : Idx κ) = .error .valueError := rfl
      simp only [getItem, hi, this, bind, Except.bind]
  · exact ⟨rfl, rfl⟩
  · intro n; rfl
  · intro r R hrd hr
    unfold Readable at hrd
    push Not at hrd
    obtain ⟨s, hb, hf⟩ := hrd
    obtain ⟨i, ps, hi, hi', -⟩ := sub_spec hm.rows hr
    constructor
    · simp [getItem, hi', bind, Except.bind, hb, Body.getSole, Sp.getSole, hf]
    · intro c C hc
      obtain ⟨j, qs, hj, -⟩ := sub_spec hm.cols hc
      simp [getItem, hi, hj, bind, Except.bind, hb, Body.getPair, Sp.getPair, hf]

/-- The same numbers as an array and as a sparse matrix. -/
def accDn : Mtx Nat Int :=
  ⟨.dn { nr := 2, nc := 3, elem := fun i j => if i = 0 then (if j = 1 then 4 else 0) else (j : Int) + 1 }, [10, 20], [5, 6, 7]⟩

def accSp : Mtx Nat Int :=
  ⟨.sp { fmt := .csr, nr := 2, nc := 3, data := [((0, 1), 4), ((1, 0), 1), ((1, 1), 2), ((1, 2), 3)] }, [10, 20], [5, 6, 7]⟩

theorem accSp_valid : Valid accSp := by
  refine ⟨rfl, rfl, by decide, by decide, ?_⟩
  intro s hs
  cases hs
  exact ⟨by unfold Dict.WF; decide, by decide⟩

theorem accDn_valid : Valid accDn := ⟨rfl, rfl, by decide, by decide, fun s hs => by cases hs⟩

/-- **C125** (the shape is not determined by the kind of subscript).  The same numbers, stored in the two ways: a column
`mtx[:, 6]` has two dimensions when sparse and one when dense; `mtx[0:1]` has one dimension when sparse although
`mtx[0:2]` has two. -/
theorem C125_shape_counterexample :
    (∀ r ∈ accSp.rows, ∀ c ∈ accSp.cols, entry accSp r c = entry accDn r c) ∧
    getItem accSp (.pair (.slice none none) (.name 6)) = .ok (.mat [[4], [2]]) ∧
    getItem accDn (.pair (.slice none none) (.name 6)) = .ok (.vec [4, 2]) ∧
    getItem accSp (.one (.slice (some 0) (some 1))) = .ok (.vec [0, 4, 0]) ∧
    getItem accDn (.one (.slice (some 0) (some 1))) = .ok (.mat [[0, 4, 0]]) ∧
    getItem accSp (.one (.slice (some 0) (some 2))) = .ok (.mat [[0, 4, 0], [1, 2, 3]]) := by
  decide +kernel

/-- The hypotheses of the theorems above are met: names, negative positions, slices with negative ends. -/
example : Meant accSp.rows (.pos (-1)) [20] ∧ Meant accSp.cols (.slice (some (-2)) none) [6, 7] ∧
    getItem accSp (.pair (.pos (-1)) (.slice (some (-2)) none)) = .ok (.vec [2, 3]) ∧ Readable accSp ∧
    ((3 : Int) < -(accSp.rows.length : Int) ∨ (accSp.rows.length : Int) ≤ 3) ∧ 11 ∉ accSp.rows := by
  refine ⟨?_, ?_, by decide +kernel, ?_, by decide, by decide⟩
  · exact Meant.back (n := 0) (by decide)
  · have h := Meant.slice (items := accSp.cols) (a := some (-2)) (b := none)
    have e : (accSp.cols.zipIdx.filter (fun p => decide (Inside accSp.cols.length (some (-2)) none p.2))).map Prod.fst =
        [6, 7] := by decide +kernel
    rwa [e] at h
  · intro s hs; cases hs; decide

/-- A coo matrix cannot be read. -/
example : ∃ m : Mtx Nat Int, Valid m ∧ ¬ Readable m ∧ getItem m (.one (.name 10)) = .error .typeError := by
  refine ⟨⟨.sp { fmt := .coo, nr := 1, nc := 1, data := [((0, 0), 4)] }, [10], [5]⟩, ⟨rfl, rfl, by decide, by decide, ?_⟩, ?_, ?_⟩
  · intro s hs; cases hs; exact ⟨by unfold Dict.WF; decide, by decide⟩
  · intro h; exact h _ rfl rfl
  · decide +kernel

end Verif.Matrix
