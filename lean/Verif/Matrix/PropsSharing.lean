import Verif.Matrix.Sharing

/-! # Property theorems C238 (changing one matrix never changes another) -/

set_option linter.unusedSectionVars false

namespace Verif.Matrix.Mem
open Verif.Py Verif.Matrix

variable {κ ν : Type} [LinearOrder κ] [Semiring ν] [DecidableEq ν] [NPVal ν] [AllClose ν]

/-! ### Specification: every matrix and every array is a value of its own -/

/-- Matrices and own arrays as values. -/
structure World (κ ν : Type) where
  mats : List (Option (Mtx κ ν))
  own : List (Body ν)

/-- The matrix that a call returns, if it returns one. -/
def returned (r : Except Err (Option (Mtx κ ν))) : Option (Mtx κ ν) :=
  match r with
  | .ok x => x
  | .error _ => none

/-- The value of a matrix. -/
def World.mat (w : World κ ν) (n : Nat) : Option (Mtx κ ν) := (w.mats[n]?).bind id

/-- A new value. -/
def World.push (w : World κ ν) (x : Option (Mtx κ ν)) : World κ ν := { w with mats := w.mats ++ [x] }

/-- A step changes at most the value it is about, and makes at most one new one. -/
def World.step (w : World κ ν) (s : Step κ ν) : World κ ν :=
  match s with
  | .array b => { w with own := w.own ++ [b] }
  | .make k rows cols _ => w.push ((w.own[k]?).bind (fun b => returned ((mkMtx b rows cols).map some)))
  | .getMatrix n => match w.mat n with
    | none => w
    | some m => { w with own := w.own ++ [m.body] }
  | .sub n row col => w.push ((w.mat n).bind (fun m => returned (submatrix m row col)))
  | .dropEmpty n axis1 explicit => w.push ((w.mat n).bind (fun m => returned (Matrix.dropEmpty m axis1 explicit)))
  | .one n f => w.push ((w.mat n).bind (fun m => returned (f.run m)))
  | .two n t f => w.push ((w.mat n).bind (fun m => (w.mat t).bind (fun u => returned (f.run m u))))
  | .changeOwn k g => { w with own := w.own.modify k g }
  | .changeArray n g => { w with mats := w.mats.modify n (Option.map (fun m => { m with body := g m.body })) }
  | .changeRows n g => { w with mats := w.mats.modify n (Option.map (fun m => { m with rows := g m.rows })) }
  | .changeCols n g => { w with mats := w.mats.modify n (Option.map (fun m => { m with cols := g m.cols })) }

/-- A program of values. -/
def World.run (w : World κ ν) (p : List (Step κ ν)) : World κ ν := p.foldl World.step w

/-- The claim of C238: a program sees what it would see if all its matrices and arrays were values. -/
def C238_claim (p : List (Step κ ν)) : Prop :=
  (Memory.start.run p).seen = (World.run ⟨[], []⟩ p).mats ∧
  (Memory.start.run p).seenOwn = (World.run ⟨[], []⟩ p).own.map some

/-- A row of a sparse array that does not count as empty: it has a stored value, or a value other than 0. -/
def RowFull (s : Sp ν) (explicit : Bool) (i : Nat) : Prop :=
  if explicit = true then ∃ e ∈ s.data, e.1.1 = i else ∃ j < s.nc, s.val i j ≠ 0

/-- The steps that return a matrix which is not independent: a constructor that is told not to copy, the selection of everything
from a sparse matrix, and dropping empty rows of a sparse matrix without any. -/
def Shares (w : World κ ν) (s : Step κ ν) : Prop :=
  match s with
  | .make _ _ _ deep => deep = false
  | .sub n none none => ∃ m a, w.mat n = some m ∧ m.body = .sp a
  | .dropEmpty n false explicit => ∃ m a, w.mat n = some m ∧ m.body = .sp a ∧ ∀ i < a.nr, i < m.rows.length → RowFull a explicit i
  | _ => False

/-- No step of a program is one of these. -/
def Independent (w : World κ ν) : List (Step κ ν) → Prop
  | [] => True
  | s :: p => ¬ Shares w s ∧ Independent (w.step s) p

/-! ### The invariant: every address has one owner -/

/-- A matrix in memory and its value. -/
def Good (st : Memory κ ν) (oa : Nat → Nat ⊕ Nat) (ol : Nat → Nat × Bool) (n : Nat) : Option Ref → Option (Mtx κ ν) → Prop
  | none, none => True
  | some r, some m => st.arrs[r.arr]? = some m.body ∧ st.lists[r.rows]? = some m.rows ∧ st.lists[r.cols]? = some m.cols ∧
      oa r.arr = .inl n ∧ ol r.rows = (n, false) ∧ ol r.cols = (n, true)
  | _, _ => False

/-- Memory and values agree, and every address has one owner. -/
structure Inv (st : Memory κ ν) (w : World κ ν) (oa : Nat → Nat ⊕ Nat) (ol : Nat → Nat × Bool) : Prop where
  len : st.vars.length = w.mats.length
  lenOwn : st.own.length = w.own.length
  good : ∀ n v x, st.vars[n]? = some v → w.mats[n]? = some x → Good st oa ol n v x
  goodOwn : ∀ k a b, st.own[k]? = some a → w.own[k]? = some b → st.arrs[a]? = some b ∧ oa a = .inr k

theorem Inv.ref_none {st : Memory κ ν} {w : World κ ν} {oa ol} (h : Inv st w oa ol) {n : Nat} (hn : st.ref n = none) : w.mat n = none := by
  unfold Memory.ref at hn
  unfold World.mat
  cases hx : w.mats[n]? with
  | none => rfl
  | some x =>
    have hl : n < st.vars.length := by
      rw [h.len]
      exact (List.getElem?_eq_some_iff.1 hx).1
    rw [List.getElem?_eq_getElem hl] at hn
    have g := h.good n _ x (List.getElem?_eq_getElem hl) hx
    simp only [Option.bind_some, id] at hn
    rw [hn] at g
    cases x with
    | none => rfl
    | some m => exact g.elim

theorem Inv.ref_some {st : Memory κ ν} {w : World κ ν} {oa ol} (h : Inv st w oa ol) {n : Nat} {r : Ref} (hn : st.ref n = some r) :
    ∃ m, w.mat n = some m ∧ st.load r = some m ∧ Good st oa ol n (some r) (some m) ∧ st.vars[n]? = some (some r) := by
  unfold Memory.ref at hn
  obtain ⟨v, hv, hv'⟩ := Option.bind_eq_some_iff.1 hn
  simp only [id] at hv'
  subst hv'
  have hl : n < w.mats.length := by
    rw [← h.len]
    exact (List.getElem?_eq_some_iff.1 hv).1
  have g := h.good n _ _ hv (List.getElem?_eq_getElem hl)
  cases hx : w.mats[n] with
  | none => rw [hx] at g; exact g.elim
  | some m =>
    rw [hx] at g
    refine ⟨m, ?_, ?_, g, hv⟩
    · unfold World.mat
      rw [List.getElem?_eq_getElem hl, hx]
      rfl
    · unfold Memory.load
      rw [g.1, g.2.1, g.2.2.1]

theorem Inv.loaded {st : Memory κ ν} {w : World κ ν} {oa ol} (h : Inv st w oa ol) (n : Nat) : (st.ref n).bind st.load = w.mat n := by
  cases hn : st.ref n with
  | none => rw [h.ref_none hn]; rfl
  | some r =>
    obtain ⟨m, h1, h2, _⟩ := h.ref_some hn
    rw [h1, Option.bind_some, h2]

theorem Good.append {st : Memory κ ν} {oa ol n v} {x : Option (Mtx κ ν)} (h : Good st oa ol n v x) {st' : Memory κ ν} {oa' ol'}
    {as : List (Body ν)} {ls : List (List κ)} (h1 : st'.arrs = st.arrs ++ as) (h2 : st'.lists = st.lists ++ ls)
    (h3 : ∀ a < st.arrs.length, oa' a = oa a) (h4 : ∀ a < st.lists.length, ol' a = ol a) : Good st' oa' ol' n v x := by
  cases v with
  | none => cases x with
    | none => trivial
    | some _ => exact h.elim
  | some r => cases x with
    | none => exact h.elim
    | some m =>
      obtain ⟨a, b, c, d, e, f⟩ := h
      have la := (List.getElem?_eq_some_iff.1 a).1
      have lb := (List.getElem?_eq_some_iff.1 b).1
      have lc := (List.getElem?_eq_some_iff.1 c).1
      refine ⟨?_, ?_, ?_, ?_, ?_, ?_⟩
      · rw [h1, List.getElem?_append_left la, a]
      · rw [h2, List.getElem?_append_left lb, b]
      · rw [h2, List.getElem?_append_left lc, c]
      · rw [h3 _ la, d]
      · rw [h4 _ lb, e]
      · rw [h4 _ lc, f]

theorem getElem?_snoc {α : Type} {l : List α} {x y : α} {n : Nat} (h : (l ++ [x])[n]? = some y) :
    (l[n]? = some y) ∨ (n = l.length ∧ x = y) := by
  rcases Nat.lt_trichotomy n l.length with hn | hn | hn
  · rw [List.getElem?_append_left hn] at h
    exact Or.inl h
  · subst hn
    rw [List.getElem?_concat_length] at h
    exact Or.inr ⟨rfl, Option.some.inj h⟩
  · rw [List.getElem?_append_right (by omega)] at h
    rw [List.getElem?_eq_none (by simp; omega)] at h
    exact absurd h (by simp)

theorem Inv.nothing {st : Memory κ ν} {w : World κ ν} {oa ol} (h : Inv st w oa ol) : Inv st.nothing (w.push none) oa ol := by
  refine ⟨by simp [Memory.nothing, World.push, h.len], h.lenOwn, ?_, h.goodOwn⟩
  intro n v x hv hx
  rcases getElem?_snoc hv with a | ⟨rfl, rfl⟩ <;> rcases getElem?_snoc hx with b | ⟨b, rfl⟩
  · exact h.good n v x a b
  · exact absurd (List.getElem?_eq_some_iff.1 a).1 (by rw [h.len, b]; omega)
  · exact absurd (List.getElem?_eq_some_iff.1 b).1 (by rw [h.len]; omega)
  · trivial

theorem Inv.fresh {st : Memory κ ν} {w : World κ ν} {oa ol} (h : Inv st w oa ol) (m : Mtx κ ν) :
    ∃ oa' ol', Inv (st.fresh m) (w.push (some m)) oa' ol' := by
  refine ⟨fun a => if a = st.arrs.length then .inl st.vars.length else oa a,
    fun a => if a = st.lists.length then (st.vars.length, false) else if a = st.lists.length + 1 then (st.vars.length, true) else ol a,
    by simp [Memory.fresh, World.push, h.len], h.lenOwn, ?_, ?_⟩
  · intro n v x hv hx
    rcases getElem?_snoc hv with a | ⟨rfl, rfl⟩ <;> rcases getElem?_snoc hx with b | ⟨b, rfl⟩
    · refine (h.good n v x a b).append (as := [m.body]) (ls := [m.rows, m.cols]) rfl rfl ?_ ?_
      · intro a ha
        exact if_neg (by omega)
      · intro a ha
        rw [if_neg (by omega), if_neg (by omega)]
    · exact absurd (List.getElem?_eq_some_iff.1 a).1 (by rw [h.len, b]; omega)
    · exact absurd (List.getElem?_eq_some_iff.1 b).1 (by rw [h.len]; omega)
    · simp [Good, Memory.fresh]
  · intro k a b ha hb
    obtain ⟨h1, h2⟩ := h.goodOwn k a b ha hb
    have la := (List.getElem?_eq_some_iff.1 h1).1
    refine ⟨?_, ?_⟩
    · show (st.arrs ++ [m.body])[a]? = _
      rw [List.getElem?_append_left la, h1]
    · exact (if_neg (by omega)).trans h2

theorem Inv.result {st : Memory κ ν} {w : World κ ν} {oa ol} (h : Inv st w oa ol) (r : Except Err (Option (Mtx κ ν))) :
    ∃ oa' ol', Inv (st.result r) (w.push (returned r)) oa' ol' := by
  rcases r with e | x
  · exact ⟨_, _, h.nothing⟩
  · cases x with
    | none => exact ⟨_, _, h.nothing⟩
    | some m => exact h.fresh m

theorem Inv.newOwn {st : Memory κ ν} {w : World κ ν} {oa ol} (h : Inv st w oa ol) (b : Body ν) :
    ∃ oa' ol', Inv { st with arrs := st.arrs ++ [b], own := st.own ++ [st.arrs.length] } { w with own := w.own ++ [b] } oa' ol' := by
  refine ⟨fun a => if a = st.arrs.length then .inr st.own.length else oa a, ol, h.len, by simp [h.lenOwn], ?_, ?_⟩
  · intro n v x hv hx
    refine (h.good n v x hv hx).append (as := [b]) (ls := []) rfl (by simp) ?_ (fun _ _ => rfl)
    intro a ha
    exact if_neg (by omega)
  · intro k a c ha hc
    rcases getElem?_snoc ha with p | ⟨rfl, rfl⟩ <;> rcases getElem?_snoc hc with q | ⟨q, rfl⟩
    · obtain ⟨h1, h2⟩ := h.goodOwn k a c p q
      have la := (List.getElem?_eq_some_iff.1 h1).1
      refine ⟨?_, (if_neg (by omega)).trans h2⟩
      show (st.arrs ++ [b])[a]? = _
      rw [List.getElem?_append_left la, h1]
    · exact absurd (List.getElem?_eq_some_iff.1 p).1 (by rw [h.lenOwn, q]; omega)
    · exact absurd (List.getElem?_eq_some_iff.1 q).1 (by rw [h.lenOwn]; omega)
    · simp

theorem modify_at {α : Type} {l : List α} {a : Nat} {x : α} (h : l[a]? = some x) (g : α → α) : (l.modify a g)[a]? = some (g x) := by
  rw [List.getElem?_modify_eq, h]
  rfl

theorem modify_off {α : Type} {l : List α} {a b : Nat} {x : α} (h : l[b]? = some x) (hab : a ≠ b) (g : α → α) :
    (l.modify a g)[b]? = some x := by
  rw [List.getElem?_modify_ne _ _ hab, h]

theorem Inv.changeOwn {st : Memory κ ν} {w : World κ ν} {oa ol} (h : Inv st w oa ol) {k a : Nat} (hk : st.own[k]? = some a)
    (g : Body ν → Body ν) : Inv { st with arrs := st.arrs.modify a g } { w with own := w.own.modify k g } oa ol := by
  have hlk : k < w.own.length := by rw [← h.lenOwn]; exact (List.getElem?_eq_some_iff.1 hk).1
  obtain ⟨-, hak⟩ := h.goodOwn k a _ hk (List.getElem?_eq_getElem hlk)
  refine ⟨h.len, by simp [h.lenOwn], ?_, ?_⟩
  · intro n v x hv hx
    have q := h.good n v x hv hx
    cases v with
    | none => cases x with
      | none => trivial
      | some _ => exact q.elim
    | some r => cases x with
      | none => exact q.elim
      | some m =>
        obtain ⟨q1, q2, q3, q4, q5, q6⟩ := q
        refine ⟨?_, q2, q3, q4, q5, q6⟩
        have : a ≠ r.arr := by
          rintro rfl
          rw [hak] at q4
          cases q4
        exact modify_off q1 this g
  · intro k' a' b' ha' hb'
    change (w.own.modify k g)[k']? = some b' at hb'
    rw [List.getElem?_modify] at hb'
    obtain ⟨b0, hb0, rfl⟩ := Option.map_eq_some_iff.1 hb'
    obtain ⟨h1, h2⟩ := h.goodOwn k' a' b0 ha' hb0
    refine ⟨?_, h2⟩
    by_cases e : k = k'
    · subst e
      change st.own[k]? = some a' at ha'
      rw [hk] at ha'
      cases ha'
      rw [if_pos rfl]
      exact modify_at h1 g
    · have : a ≠ a' := by
        rintro rfl
        rw [hak] at h2
        exact e (Sum.inr.inj h2)
      rw [if_neg e]
      exact modify_off h1 this g

theorem Inv.changeMat {st : Memory κ ν} {w : World κ ν} {oa ol} (h : Inv st w oa ol) {n : Nat} {r : Ref} (hr : st.ref n = some r)
    (ga : Body ν → Body ν) (gr gc : List κ → List κ) (hd : r.rows ≠ r.cols) :
    Inv { st with arrs := st.arrs.modify r.arr ga, lists := (st.lists.modify r.rows gr).modify r.cols gc }
      { w with mats := w.mats.modify n (Option.map (fun m => ⟨ga m.body, gr m.rows, gc m.cols⟩)) } oa ol := by
  obtain ⟨m0, -, -, ⟨-, -, -, g4, g5, g6⟩, hv0⟩ := h.ref_some hr
  refine ⟨by simp [h.len], h.lenOwn, ?_, ?_⟩
  · intro n' v x hv hx
    change (w.mats.modify n _)[n']? = some x at hx
    rw [List.getElem?_modify] at hx
    obtain ⟨x0, hx0, hxe⟩ := Option.map_eq_some_iff.1 hx
    have q := h.good n' v x0 hv hx0
    cases v with
    | none => cases x0 with
      | none => subst hxe; split <;> trivial
      | some _ => exact q.elim
    | some r' => cases x0 with
      | none => exact q.elim
      | some m =>
        obtain ⟨q1, q2, q3, q4, q5, q6⟩ := q
        by_cases e : n = n'
        · subst e
          change st.vars[n]? = _ at hv
          rw [hv0] at hv
          cases hv
          rw [if_pos rfl] at hxe
          subst hxe
          refine ⟨?_, ?_, ?_, q4, q5, q6⟩
          · exact modify_at q1 ga
          · exact modify_off (modify_at q2 gr) (Ne.symm hd) gc
          · exact modify_at (modify_off q3 hd gr) gc
        · rw [if_neg e] at hxe
          subst hxe
          have n1 : r.arr ≠ r'.arr := by
            intro k; rw [k, q4] at g4; exact e (Sum.inl.inj g4).symm
          have n2 : r.rows ≠ r'.rows := by
            intro k; rw [k, q5] at g5; exact e (Prod.mk.inj g5).1.symm
          have n3 : r.cols ≠ r'.cols := by
            intro k; rw [k, q6] at g6; exact e (Prod.mk.inj g6).1.symm
          have n4 : r.cols ≠ r'.rows := by
            intro k; rw [k, q5] at g6; exact e (Prod.mk.inj g6).1.symm
          have n5 : r.rows ≠ r'.cols := by
            intro k; rw [k, q6] at g5; exact e (Prod.mk.inj g5).1.symm
          refine ⟨?_, ?_, ?_, q4, q5, q6⟩
          · exact modify_off q1 n1 ga
          · exact modify_off (modify_off q2 n2 gr) n4 gc
          · exact modify_off (modify_off q3 n5 gr) n3 gc
  · intro k a b ha hb
    obtain ⟨h1, h2⟩ := h.goodOwn k a b ha hb
    refine ⟨?_, h2⟩
    have : r.arr ≠ a := by
      rintro rfl
      rw [g4] at h2
      cases h2
    exact modify_off h1 this ga

theorem Inv.rows_ne {st : Memory κ ν} {w : World κ ν} {oa ol} (h : Inv st w oa ol) {n : Nat} {r : Ref} (hr : st.ref n = some r) :
    r.rows ≠ r.cols := by
  obtain ⟨m0, -, -, ⟨-, -, -, -, g5, g6⟩, -⟩ := h.ref_some hr
  intro e
  rw [e, g6] at g5
  simp at g5

theorem map_none_modify {l : List (Option (Mtx κ ν))} {n : Nat} (h : (l[n]?).bind id = none) (g : Mtx κ ν → Mtx κ ν) :
    l.modify n (Option.map g) = l := by
  apply List.ext_getElem?
  intro i
  by_cases e : n = i
  · subst e
    rw [List.getElem?_modify_eq]
    cases hx : l[n]? with
    | none => rfl
    | some x =>
      rw [hx] at h
      simp only [Option.bind_some, id] at h
      subst h
      rfl
  · rw [List.getElem?_modify_ne _ _ e]

theorem noEmpty_iff {s : Sp ν} {explicit : Bool} {rows : List κ} :
    ((s.emptyRows explicit).filterMap (fun i => rows[i]?)).isEmpty = true ↔ ∀ i < s.nr, i < rows.length → RowFull s explicit i := by
  rw [List.isEmpty_iff, List.filterMap_eq_nil_iff]
  unfold Sp.emptyRows RowFull
  constructor
  · intro h i hi hl
    by_contra hc
    have := h i (by
      refine List.mem_filter.2 ⟨List.mem_range.2 hi, ?_⟩
      cases explicit with
      | true =>
        simp only [if_pos] at hc ⊢
        rw [List.all_eq_true]
        intro e he
        refine decide_eq_true fun k => hc ⟨e, he, k⟩
      | false =>
        simp only [Bool.false_eq_true, if_false] at hc ⊢
        rw [List.all_eq_true]
        intro j hj
        refine decide_eq_true ?_
        by_contra k
        exact hc ⟨j, List.mem_range.1 hj, k⟩)
    rw [List.getElem?_eq_getElem hl] at this
    exact absurd this (by simp)
  · intro h i hi
    rw [List.mem_filter, List.mem_range] at hi
    by_cases hl : i < rows.length
    · exfalso
      have k := h i hi.1 hl
      have q := hi.2
      cases explicit with
      | true =>
        simp only [if_pos] at k q
        obtain ⟨e, he, hk⟩ := k
        rw [List.all_eq_true] at q
        exact of_decide_eq_true (q e he) hk
      | false =>
        simp only [Bool.false_eq_true, if_false] at k q
        obtain ⟨j, hj, hk⟩ := k
        rw [List.all_eq_true] at q
        exact hk (of_decide_eq_true (q j (List.mem_range.2 hj)))
    · exact List.getElem?_eq_none (by omega)

theorem Inv.step {st : Memory κ ν} {w : World κ ν} {oa ol} (h : Inv st w oa ol) {s : Step κ ν} (hs : ¬ Shares w s) :
    ∃ oa' ol', Inv (st.step s) (w.step s) oa' ol' := by
  cases s with
  | array b => exact h.newOwn b
  | make k rows cols deep =>
    have hd : deep = true := by
      cases deep with
      | true => rfl
      | false => exact absurd rfl hs
    subst hd
    unfold Memory.step World.step
    cases hk : st.own[k]? with
    | none =>
      have : w.own[k]? = none := List.getElem?_eq_none (by rw [← h.lenOwn]; exact List.getElem?_eq_none_iff.1 hk)
      simp only [hk, this]
      exact ⟨_, _, h.nothing⟩
    | some a =>
      have hlk : k < w.own.length := by rw [← h.lenOwn]; exact (List.getElem?_eq_some_iff.1 hk).1
      obtain ⟨h1, _⟩ := h.goodOwn k a _ hk (List.getElem?_eq_getElem hlk)
      simp only [hk, List.getElem?_eq_getElem hlk, Option.bind_some]
      unfold Memory.construct
      rw [h1]
      dsimp only
      cases hm : mkMtx w.own[k] rows cols with
      | error e => exact ⟨_, _, h.nothing⟩
      | ok m => exact h.fresh m
  | getMatrix n =>
    unfold Memory.step World.step
    simp only [h.loaded n]
    cases w.mat n with
    | none => exact ⟨_, _, h⟩
    | some m => exact h.newOwn m.body
  | sub n row col =>
    unfold Memory.step World.step
    cases hr : st.ref n with
    | none =>
      simp only [hr, h.ref_none hr, Option.bind_none]
      exact ⟨_, _, h.nothing⟩
    | some r =>
      obtain ⟨m, h1, h2, _⟩ := h.ref_some hr
      simp only [hr, h1, h2, Option.bind_some]
      have e : st.sub r m row col = st.result (submatrix m row col) := by
        unfold Memory.sub
        split
        · next a hb => exact absurd ⟨m, a, h1, hb⟩ hs
        · rfl
      rw [e]
      exact h.result _
  | dropEmpty n axis1 explicit =>
    unfold Memory.step World.step
    cases hr : st.ref n with
    | none =>
      simp only [hr, h.ref_none hr, Option.bind_none]
      exact ⟨_, _, h.nothing⟩
    | some r =>
      obtain ⟨m, h1, h2, _⟩ := h.ref_some hr
      simp only [hr, h1, h2, Option.bind_some]
      have e : st.dropEmpty r m axis1 explicit = st.result (Matrix.dropEmpty m axis1 explicit) := by
        unfold Memory.dropEmpty
        split
        · next a hb =>
          rw [if_neg]
          intro hc
          exact hs ⟨m, a, h1, hb, noEmpty_iff.1 hc⟩
        · rfl
      rw [e]
      exact h.result _
  | one n f =>
    unfold Memory.step World.step
    simp only [h.loaded n]
    cases w.mat n with
    | none => exact ⟨_, _, h.nothing⟩
    | some m => exact h.result _
  | two n t f =>
    unfold Memory.step World.step
    simp only [h.loaded n, h.loaded t]
    cases w.mat n with
    | none => exact ⟨_, _, h.nothing⟩
    | some m => cases w.mat t with
      | none => exact ⟨_, _, h.nothing⟩
      | some u => exact h.result _
  | changeOwn k g =>
    unfold Memory.step World.step
    cases hk : st.own[k]? with
    | none =>
      have : w.own.modify k g = w.own := by
        refine List.modify_eq_self ?_
        rw [← h.lenOwn]
        exact List.getElem?_eq_none_iff.1 hk
      simp only [hk, this]
      exact ⟨_, _, h⟩
    | some a =>
      simp only [hk]
      exact ⟨_, _, h.changeOwn hk g⟩
  | changeArray n g =>
    unfold Memory.step World.step
    cases hr : st.ref n with
    | none =>
      simp only [hr, map_none_modify (h.ref_none hr)]
      exact ⟨_, _, h⟩
    | some r =>
      have := h.changeMat hr g id id (h.rows_ne hr)
      simp only [List.modify_id] at this
      simp only [hr]
      exact ⟨_, _, this⟩
  | changeRows n g =>
    unfold Memory.step World.step
    cases hr : st.ref n with
    | none =>
      simp only [hr, map_none_modify (h.ref_none hr)]
      exact ⟨_, _, h⟩
    | some r =>
      have := h.changeMat hr id g id (h.rows_ne hr)
      simp only [List.modify_id] at this
      simp only [hr]
      exact ⟨_, _, this⟩
  | changeCols n g =>
    unfold Memory.step World.step
    cases hr : st.ref n with
    | none =>
      simp only [hr, map_none_modify (h.ref_none hr)]
      exact ⟨_, _, h⟩
    | some r =>
      have := h.changeMat hr id id g (h.rows_ne hr)
      simp only [List.modify_id] at this
      simp only [hr]
      exact ⟨_, _, this⟩

theorem Inv.run {st : Memory κ ν} {w : World κ ν} {oa ol} (h : Inv st w oa ol) {p : List (Step κ ν)} (hp : Independent w p) :
    ∃ oa' ol', Inv (st.run p) (w.run p) oa' ol' := by
  induction p generalizing st w oa ol with
  | nil => exact ⟨_, _, h⟩
  | cons s p ih =>
    obtain ⟨oa', ol', h'⟩ := h.step hp.1
    exact ih h' hp.2

theorem inv_start : Inv (Memory.start : Memory κ ν) ⟨[], []⟩ (fun _ => .inl 0) (fun _ => (0, false)) :=
  ⟨rfl, rfl, fun n v x hv => by simp [Memory.start] at hv, fun k a b ha => by simp [Memory.start] at ha⟩

theorem Inv.seen {st : Memory κ ν} {w : World κ ν} {oa ol} (h : Inv st w oa ol) : st.seen = w.mats := by
  unfold Memory.seen
  apply List.ext_getElem
  · simp [h.len]
  · intro n h1 h2
    rw [List.getElem_map]
    have hl : n < st.vars.length := by simpa using h1
    have k := h.loaded n
    unfold Memory.ref World.mat at k
    rw [List.getElem?_eq_getElem hl, List.getElem?_eq_getElem h2] at k
    simpa using k

theorem Inv.seenOwn {st : Memory κ ν} {w : World κ ν} {oa ol} (h : Inv st w oa ol) : st.seenOwn = w.own.map some := by
  unfold Memory.seenOwn
  apply List.ext_getElem
  · simp [h.lenOwn]
  · intro k h1 h2
    have hl : k < st.own.length := by simpa using h1
    have hl' : k < w.own.length := by simpa using h2
    rw [List.getElem_map, List.getElem_map]
    exact (h.goodOwn k _ _ (List.getElem?_eq_getElem hl) (List.getElem?_eq_getElem hl')).1

/-! ## C238 -/

/-- **C238 (partial).** The claim holds for all programs without the three kinds of steps that return matrices which are not
independent. -/
theorem C238_partial {p : List (Step κ ν)} (hp : Independent ⟨[], []⟩ p) : C238_claim p := by
  obtain ⟨oa, ol, h⟩ := inv_start.run hp
  exact ⟨h.seen, h.seenOwn⟩

theorem Inv.selection {st : Memory κ ν} {w : World κ ν} {oa ol} (h : Inv st w oa ol) {n : Nat} {m : Mtx κ ν} {a : Sp ν}
    (hm : w.mat n = some m) (ha : m.body = .sp a) (h1 : a.nr = m.rows.length) (h2 : a.nc = m.cols.length) (g : Body ν → Body ν) :
    ((st.step (.sub n none none)).step (.changeArray w.mats.length g)).seen[n]? = some (some { m with body := g m.body }) := by
  cases hr : st.ref n with
  | none => rw [h.ref_none hr] at hm; cases hm
  | some r =>
    obtain ⟨m', e1, e2, ⟨q1, q2, q3, q4, q5, q6⟩, e4⟩ := h.ref_some hr
    rw [hm] at e1
    cases e1
    have hmk : mkMtx m.body m.rows m.cols = .ok m := by
      unfold mkMtx
      rw [ha]
      simp only [Body.nr, Body.nc, h1, h2, ne_eq, not_true_eq_false, if_false]
      rw [← ha]
    have s1 : st.step (.sub n none none) = st.around r.arr m.rows m.cols := by
      unfold Memory.step
      simp only [hr, e2]
      unfold Memory.sub
      rw [ha]
      dsimp only
      unfold Memory.construct
      rw [q1]
      dsimp only
      rw [hmk]
      rfl
    rw [s1]
    have s2 : (st.around r.arr m.rows m.cols).ref w.mats.length = some ⟨r.arr, st.lists.length, st.lists.length + 1⟩ := by
      unfold Memory.ref Memory.around
      dsimp only
      rw [← h.len, List.getElem?_concat_length]
      rfl
    unfold Memory.step
    simp only [s2]
    unfold Memory.seen Memory.around
    dsimp only
    have lv := (List.getElem?_eq_some_iff.1 e4).1
    rw [List.getElem?_map, List.getElem?_append_left lv, e4]
    simp only [Option.map_some, Option.bind_some]
    unfold Memory.load
    dsimp only
    rw [modify_at q1 g, List.getElem?_append_left (List.getElem?_eq_some_iff.1 q2).1, q2,
      List.getElem?_append_left (List.getElem?_eq_some_iff.1 q3).1, q3]

theorem Inv.dropped {st : Memory κ ν} {w : World κ ν} {oa ol} (h : Inv st w oa ol) {n : Nat} {m : Mtx κ ν} {a : Sp ν} {explicit : Bool}
    (hm : w.mat n = some m) (ha : m.body = .sp a) (hf : ∀ i < a.nr, i < m.rows.length → RowFull a explicit i) :
    (st.step (.dropEmpty n false explicit)).vars[w.mats.length]? = st.vars[n]? ∧
    (∀ g, ((st.step (.dropEmpty n false explicit)).step (.changeArray w.mats.length g)).seen[n]? = some (some { m with body := g m.body })) ∧
    (∀ g, ((st.step (.dropEmpty n false explicit)).step (.changeRows w.mats.length g)).seen[n]? = some (some { m with rows := g m.rows })) ∧
    (∀ g, ((st.step (.dropEmpty n false explicit)).step (.changeCols w.mats.length g)).seen[n]? = some (some { m with cols := g m.cols })) := by
  cases hr : st.ref n with
  | none => rw [h.ref_none hr] at hm; cases hm
  | some r =>
    have hd := h.rows_ne hr
    obtain ⟨m', e1, e2, ⟨q1, q2, q3, q4, q5, q6⟩, e4⟩ := h.ref_some hr
    rw [hm] at e1
    cases e1
    have s1 : st.step (.dropEmpty n false explicit) = st.same r := by
      unfold Memory.step
      simp only [hr, e2]
      unfold Memory.dropEmpty
      rw [ha]
      dsimp only
      rw [if_pos (noEmpty_iff.2 hf)]
    have s2 : (st.same r).ref w.mats.length = some r := by
      unfold Memory.ref Memory.same
      dsimp only
      rw [← h.len, List.getElem?_concat_length]
      rfl
    have lv := (List.getElem?_eq_some_iff.1 e4).1
    rw [s1]
    refine ⟨?_, fun g => ?_, fun g => ?_, fun g => ?_⟩
    · unfold Memory.same
      dsimp only
      rw [← h.len, List.getElem?_concat_length, e4]
    all_goals
      unfold Memory.step
      simp only [s2]
      unfold Memory.seen Memory.same
      dsimp only
      rw [List.getElem?_map, List.getElem?_append_left lv, e4]
      simp only [Option.map_some, Option.bind_some]
      unfold Memory.load
      dsimp only
    · rw [modify_at q1 g, q2, q3]
    · rw [modify_at q2 g, q1, modify_off q3 hd g]
    · rw [modify_at q3 g, q1, modify_off q2 (Ne.symm hd) g]

/-- **C238**, the first exception: after any such program, the selection of everything from a sparse matrix returns a matrix with the
same array, so that all changes of the one are changes of the other. -/
theorem C238_selection {p : List (Step κ ν)} (hp : Independent ⟨[], []⟩ p) {n : Nat} {m : Mtx κ ν} {a : Sp ν}
    (hm : (World.run ⟨[], []⟩ p).mat n = some m) (ha : m.body = .sp a) (h1 : a.nr = m.rows.length) (h2 : a.nc = m.cols.length)
    (g : Body ν → Body ν) :
    (Memory.start.run (p ++ [.sub n none none, .changeArray (World.run ⟨[], []⟩ p).mats.length g])).seen[n]? =
      some (some { m with body := g m.body }) := by
  obtain ⟨oa, ol, h⟩ := inv_start.run hp
  have k := h.selection hm ha h1 h2 g
  unfold Memory.run at k ⊢
  rw [List.foldl_append]
  exact k

/-- **C238**, the second exception: dropping the empty rows of a sparse matrix without empty rows returns the matrix itself, so that all
changes of its array, its row items and its column items are changes of the one it was called for. -/
theorem C238_dropped {p : List (Step κ ν)} (hp : Independent ⟨[], []⟩ p) {n : Nat} {m : Mtx κ ν} {a : Sp ν} {explicit : Bool}
    (hm : (World.run ⟨[], []⟩ p).mat n = some m) (ha : m.body = .sp a)
    (hf : ∀ i < a.nr, i < m.rows.length → RowFull a explicit i) :
    (∀ g, (Memory.start.run (p ++ [.dropEmpty n false explicit, .changeArray (World.run ⟨[], []⟩ p).mats.length g])).seen[n]? =
      some (some { m with body := g m.body })) ∧
    (∀ g, (Memory.start.run (p ++ [.dropEmpty n false explicit, .changeRows (World.run ⟨[], []⟩ p).mats.length g])).seen[n]? =
      some (some { m with rows := g m.rows })) ∧
    (∀ g, (Memory.start.run (p ++ [.dropEmpty n false explicit, .changeCols (World.run ⟨[], []⟩ p).mats.length g])).seen[n]? =
      some (some { m with cols := g m.cols })) := by
  obtain ⟨oa, ol, h⟩ := inv_start.run hp
  obtain ⟨-, k1, k2, k3⟩ := h.dropped hm ha hf
  unfold Memory.run at k1 k2 k3 ⊢
  refine ⟨fun g => ?_, fun g => ?_, fun g => ?_⟩ <;> rw [List.foldl_append]
  · exact k1 g
  · exact k2 g
  · exact k3 g

/-- A matrix with the entry 5 at (1, 7). -/
def oneEntry : Body Int := .sp ⟨.csr, 1, 1, [((0, 0), 5)]⟩

/-- `m.matrix[0, 0] = 6` for that matrix. -/
def toSix : Body Int → Body Int
  | .sp s => .sp { s with data := s.data.map (fun e => (e.1, 6)) }
  | b => b

/-- The stored values that are seen of a matrix. -/
def storedOf (x : Option (Option (Mtx Nat Int))) : List ((Nat × Nat) × Int) :=
  match x with
  | some (some m) => match m.body with
    | .sp s => s.data
    | _ => []
  | _ => []

/-- **C238 is false**: a change of the matrix that `submatrix()` or `drop_empty()` returned changes the one it was called for. -/
theorem C238_false :
    ¬ C238_claim ([.array oneEntry, .make 0 [1] [7] true, .sub 0 none none, .changeArray 1 toSix] : List (Step Nat Int)) ∧
    ¬ C238_claim ([.array oneEntry, .make 0 [1] [7] true, .dropEmpty 0 false false, .changeArray 1 toSix] : List (Step Nat Int)) := by
  refine ⟨fun h => ?_, fun h => ?_⟩
  · have a : storedOf ((Memory.start.run ([.array oneEntry, .make 0 [1] [7] true, .sub 0 none none, .changeArray 1 toSix] :
        List (Step Nat Int))).seen[0]?) = [((0, 0), 6)] := by decide +kernel
    have b : storedOf ((World.run ⟨[], []⟩ ([.array oneEntry, .make 0 [1] [7] true, .sub 0 none none, .changeArray 1 toSix] :
        List (Step Nat Int))).mats[0]?) = [((0, 0), 5)] := by decide +kernel
    rw [h.1, b] at a
    exact absurd a (by decide)
  · have a : storedOf ((Memory.start.run ([.array oneEntry, .make 0 [1] [7] true, .dropEmpty 0 false false, .changeArray 1 toSix] :
        List (Step Nat Int))).seen[0]?) = [((0, 0), 6)] := by decide +kernel
    have b : storedOf ((World.run ⟨[], []⟩ ([.array oneEntry, .make 0 [1] [7] true, .dropEmpty 0 false false, .changeArray 1 toSix] :
        List (Step Nat Int))).mats[0]?) = [((0, 0), 5)] := by decide +kernel
    rw [h.1, b] at a
    exact absurd a (by decide)

/-- A program that makes a matrix, transposes it and changes the second one meets the conditions; the two are different afterwards. -/
example : Independent ⟨[], []⟩ ([.array oneEntry, .make 0 [1] [7] true, .one 0 .transpose, .changeArray 1 toSix] : List (Step Nat Int)) ∧
    storedOf ((Memory.start.run ([.array oneEntry, .make 0 [1] [7] true, .one 0 .transpose, .changeArray 1 toSix] :
      List (Step Nat Int))).seen[0]?) = [((0, 0), 5)] ∧
    storedOf ((Memory.start.run ([.array oneEntry, .make 0 [1] [7] true, .one 0 .transpose, .changeArray 1 toSix] :
      List (Step Nat Int))).seen[1]?) = [((0, 0), 6)] := by
  refine ⟨⟨fun h => h, Bool.noConfusion, fun h => h, fun h => h, trivial⟩, by decide +kernel, by decide +kernel⟩

end Verif.Matrix.Mem
