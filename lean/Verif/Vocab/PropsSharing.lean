import Verif.Vocab.Sharing

/-! # Property theorems C239 (changing one vocabulary never changes another) -/

set_option linter.unusedSectionVars false

namespace Verif.Vocab.Mem
open Verif.Py Verif.Vocab

variable {κ : Type} [LinearOrder κ]

/-! ### Specification: every vocabulary and every dictionary is a value of its own -/

/-- Vocabularies and own dictionaries as values. -/
structure World (κ : Type) where
  vocs : List (Vocab κ)
  own : List (Dict κ Int × Bool)

/-- A new vocabulary, computed from an earlier one. -/
def World.result (w : World κ) (n : Nat) (f : Vocab κ → Vocab κ) : World κ :=
  match w.vocs[n]? with
  | none => w
  | some v => { w with vocs := w.vocs ++ [f v] }

/-- A step changes at most the value it is about, and makes at most one new one. -/
def World.step (w : World κ) (s : Step κ) : World κ :=
  match s with
  | .dict d dflt => { w with own := w.own ++ [(d, dflt)] }
  | .none => { w with vocs := w.vocs ++ [empty] }
  | .make k => match w.own[k]? with
    | none => w
    | some d => { w with vocs := w.vocs ++ [mk' d.1 d.2] }
  | .getDict n => match w.vocs[n]? with
    | none => w
    | some v => { w with own := w.own ++ [(v.freq, v.dflt)] }
  | .select n conds => w.result n (fun v => selectTuple v conds)
  | .freq n => w.result n id
  | .subvocab n items => w.result n (fun v => Vocab.subvocab v items)
  | .copy n => w.result n deepcopy
  | .setItem n x i => { w with vocs := w.vocs.modify n (fun v => Vocab.setItem v x i) }
  | .increment n x i => { w with vocs := w.vocs.modify n (fun v => Vocab.increment v x i) }
  | .read n x => { w with vocs := w.vocs.modify n (fun v => (getStr v x).2) }
  | .setFilter n b => { w with vocs := w.vocs.modify n (fun v => { v with filter := b }) }
  | .changeOwn k g => { w with own := w.own.modify k (fun d => (g d.1, d.2)) }

/-- A program of values. -/
def World.run (w : World κ) (p : List (Step κ)) : World κ := p.foldl World.step w

/-- The claim of C239: a program sees what it would see if all its vocabularies and dictionaries were values. -/
def C239_claim (p : List (Step κ)) : Prop :=
  (Memory.start.run p).seen = (World.run ⟨[], []⟩ p).vocs.map some ∧
  (Memory.start.run p).seenOwn = (World.run ⟨[], []⟩ p).own.map some

/-- The steps that give a further name to a vocabulary instead of making one: `v.freq` and `v[()]`. -/
def Renames (s : Step κ) : Prop :=
  match s with
  | .select _ [] => True
  | .freq _ => True
  | _ => False

/-! ### The invariant: every dictionary has one owner -/

/-- Memory and values agree, every vocabulary has one name and every dictionary one owner. -/
structure Inv (st : Memory κ) (w : World κ) (oa : Nat → Nat ⊕ Nat) : Prop where
  len : st.objs.length = w.vocs.length
  vars : st.vars = List.range st.objs.length
  lenOwn : st.own.length = w.own.length
  good : ∀ n r v, st.objs[n]? = some r → w.vocs[n]? = some v →
    st.dicts[r.dict]? = some (v.freq, v.dflt) ∧ r.mark = v.filter ∧ oa r.dict = .inl n
  goodOwn : ∀ k a d, st.own[k]? = some a → w.own[k]? = some d → st.dicts[a]? = some d ∧ oa a = .inr k

theorem snoc_some {α : Type} {l : List α} {x y : α} {n : Nat} (h : (l ++ [x])[n]? = some y) :
    (l[n]? = some y) ∨ (n = l.length ∧ x = y) := by
  rcases Nat.lt_trichotomy n l.length with hn | hn | hn
  · rw [List.getElem?_append_left hn] at h
    exact Or.inl h
  · subst hn
    rw [List.getElem?_concat_length] at h
    exact Or.inr ⟨rfl, Option.some.inj h⟩
  · rw [List.getElem?_append_right (by omega)] at h
    rw [List.getElem?_eq_none (by simp; omega)] at h
    exact absurd h (by simp)

theorem modify_same {α : Type} {l : List α} {a : Nat} {x : α} (h : l[a]? = some x) (g : α → α) : (l.modify a g)[a]? = some (g x) := by
  rw [List.getElem?_modify_eq, h]
  rfl

theorem modify_other {α : Type} {l : List α} {a b : Nat} {x : α} (h : l[b]? = some x) (hab : a ≠ b) (g : α → α) :
    (l.modify a g)[b]? = some x := by
  rw [List.getElem?_modify_ne _ _ hab, h]

theorem modify_none {α : Type} {l : List α} {a : Nat} (h : l[a]? = none) (g : α → α) : l.modify a g = l := by
  apply List.ext_getElem?
  intro i
  by_cases e : a = i
  · subst e
    rw [List.getElem?_modify_eq, h]
    rfl
  · rw [List.getElem?_modify_ne _ _ e]

theorem Inv.var {st : Memory κ} {w : World κ} {oa} (h : Inv st w oa) {n : Nat} (hn : n < w.vocs.length) : st.vars[n]? = some n := by
  rw [h.vars, List.getElem?_range (by rw [h.len]; exact hn)]

theorem Inv.var_none {st : Memory κ} {w : World κ} {oa} (h : Inv st w oa) {n : Nat} (hn : w.vocs[n]? = none) : st.vars[n]? = none := by
  rw [h.vars]
  apply List.getElem?_eq_none
  rw [List.length_range, h.len]
  exact List.getElem?_eq_none_iff.1 hn

theorem Inv.obj {st : Memory κ} {w : World κ} {oa} (h : Inv st w oa) {n : Nat} {v : Vocab κ} (hn : w.vocs[n]? = some v) :
    ∃ r, st.objs[n]? = some r ∧ st.dicts[r.dict]? = some (v.freq, v.dflt) ∧ r.mark = v.filter ∧ oa r.dict = .inl n := by
  have hl : n < st.objs.length := by rw [h.len]; exact (List.getElem?_eq_some_iff.1 hn).1
  exact ⟨_, List.getElem?_eq_getElem hl, h.good n _ v (List.getElem?_eq_getElem hl) hn⟩

theorem Inv.load {st : Memory κ} {w : World κ} {oa} (h : Inv st w oa) (n : Nat) : (st.vars[n]?).bind st.load = w.vocs[n]? := by
  cases hn : w.vocs[n]? with
  | none => rw [h.var_none hn]; rfl
  | some v =>
    obtain ⟨r, h1, h2, h3, -⟩ := h.obj hn
    rw [h.var (List.getElem?_eq_some_iff.1 hn).1, Option.bind_some]
    unfold Memory.load
    rw [h1]
    dsimp only
    rw [h2, h3]
    rfl

theorem Inv.construct {st : Memory κ} {w : World κ} {oa} (h : Inv st w oa) (d : Dict κ Int × Bool) :
    ∃ oa', Inv (st.construct d) { w with vocs := w.vocs ++ [mk' d.1 d.2] } oa' := by
  refine ⟨fun a => if a = st.dicts.length then .inl st.objs.length else oa a, by simp [Memory.construct, h.len], ?_, h.lenOwn, ?_, ?_⟩
  · simp [Memory.construct, h.vars, List.range_succ]
  · intro n r v hr hv
    rcases snoc_some hr with a | ⟨rfl, rfl⟩ <;> rcases snoc_some hv with b | ⟨b, rfl⟩
    · obtain ⟨h1, h2, h3⟩ := h.good n r v a b
      have la := (List.getElem?_eq_some_iff.1 h1).1
      refine ⟨?_, h2, (if_neg (by omega)).trans h3⟩
      show (st.dicts ++ [d])[r.dict]? = _
      rw [List.getElem?_append_left la, h1]
    · exact absurd (List.getElem?_eq_some_iff.1 a).1 (by rw [h.len, b]; omega)
    · exact absurd (List.getElem?_eq_some_iff.1 b).1 (by rw [h.len]; omega)
    · refine ⟨?_, rfl, if_pos rfl⟩
      show (st.dicts ++ [d])[st.dicts.length]? = _
      rw [List.getElem?_concat_length]
      rfl
  · intro k a e ha he
    obtain ⟨h1, h2⟩ := h.goodOwn k a e ha he
    have la := (List.getElem?_eq_some_iff.1 h1).1
    refine ⟨?_, (if_neg (by omega)).trans h2⟩
    show (st.dicts ++ [d])[a]? = _
    rw [List.getElem?_append_left la, h1]

theorem Inv.give {st : Memory κ} {w : World κ} {oa} (h : Inv st w oa) (d : Dict κ Int × Bool) :
    ∃ oa', Inv (st.give d) { w with own := w.own ++ [d] } oa' := by
  refine ⟨fun a => if a = st.dicts.length then .inr st.own.length else oa a, h.len, h.vars, by simp [Memory.give, h.lenOwn], ?_, ?_⟩
  · intro n r v hr hv
    obtain ⟨h1, h2, h3⟩ := h.good n r v hr hv
    have la := (List.getElem?_eq_some_iff.1 h1).1
    refine ⟨?_, h2, (if_neg (by omega)).trans h3⟩
    show (st.dicts ++ [d])[r.dict]? = _
    rw [List.getElem?_append_left la, h1]
  · intro k a e ha he
    rcases snoc_some ha with p | ⟨rfl, rfl⟩ <;> rcases snoc_some he with q | ⟨q, rfl⟩
    · obtain ⟨h1, h2⟩ := h.goodOwn k a e p q
      have la := (List.getElem?_eq_some_iff.1 h1).1
      refine ⟨?_, (if_neg (by omega)).trans h2⟩
      show (st.dicts ++ [d])[a]? = _
      rw [List.getElem?_append_left la, h1]
    · exact absurd (List.getElem?_eq_some_iff.1 p).1 (by rw [h.lenOwn, q]; omega)
    · exact absurd (List.getElem?_eq_some_iff.1 q).1 (by rw [h.lenOwn]; omega)
    · simp [Memory.give]

theorem Inv.result {st : Memory κ} {w : World κ} {oa} (h : Inv st w oa) (n : Nat) (f : Vocab κ → Vocab κ)
    (hf : ∀ v, f v = mk' (f v).freq (f v).dflt) : ∃ oa', Inv (st.result n f) (w.result n f) oa' := by
  unfold Memory.result World.result
  rw [h.load n]
  cases hv : w.vocs[n]? with
  | none => exact ⟨oa, h⟩
  | some v =>
    have := h.construct ((f v).freq, (f v).dflt)
    rw [← hf v] at this
    exact this

theorem Inv.change {st : Memory κ} {w : World κ} {oa} (h : Inv st w oa) (n : Nat) (g : Dict κ Int × Bool → Dict κ Int)
    (f : Vocab κ → Vocab κ) (hf : ∀ v, f v = ⟨g (v.freq, v.dflt), v.filter, v.dflt⟩) :
    Inv (st.change n g) { w with vocs := w.vocs.modify n f } oa := by
  unfold Memory.change
  cases hv : w.vocs[n]? with
  | none =>
    rw [h.var_none hv, modify_none hv]
    exact h
  | some v =>
    obtain ⟨r, h1, h2, h3, h4⟩ := h.obj hv
    rw [h.var (List.getElem?_eq_some_iff.1 hv).1, Option.bind_some, h1]
    refine ⟨by simp [h.len], h.vars, h.lenOwn, ?_, ?_⟩
    · intro n' r' v' hr' hv'
      change (w.vocs.modify n f)[n']? = some v' at hv'
      change st.objs[n']? = some r' at hr'
      by_cases e : n = n'
      · subst e
        rw [h1] at hr'
        cases hr'
        rw [modify_same hv f] at hv'
        cases hv'
        rw [hf v]
        exact ⟨modify_same h2 _, h3, h4⟩
      · rw [List.getElem?_modify_ne _ _ e] at hv'
        obtain ⟨k1, k2, k3⟩ := h.good n' r' v' hr' hv'
        refine ⟨modify_other k1 ?_ _, k2, k3⟩
        intro k
        rw [k, k3] at h4
        exact e (Sum.inl.inj h4).symm
    · intro k a d ha hd
      obtain ⟨k1, k2⟩ := h.goodOwn k a d ha hd
      refine ⟨modify_other k1 ?_ _, k2⟩
      intro e
      rw [e, k2] at h4
      cases h4

theorem Inv.setFilter {st : Memory κ} {w : World κ} {oa} (h : Inv st w oa) (n : Nat) (b : Bool) :
    Inv (st.step (.setFilter n b)) (w.step (.setFilter n b)) oa := by
  unfold Memory.step World.step
  dsimp only
  cases hv : w.vocs[n]? with
  | none =>
    rw [h.var_none hv, modify_none hv]
    exact h
  | some v =>
    obtain ⟨r, h1, h2, h3, h4⟩ := h.obj hv
    rw [h.var (List.getElem?_eq_some_iff.1 hv).1]
    refine ⟨by simp [h.len], by simpa using h.vars, h.lenOwn, ?_, h.goodOwn⟩
    intro n' r' v' hr' hv'
    change (w.vocs.modify n _)[n']? = some v' at hv'
    change (st.objs.modify n _)[n']? = some r' at hr'
    by_cases e : n = n'
    · subst e
      rw [modify_same h1] at hr'
      rw [modify_same hv] at hv'
      cases hr'
      cases hv'
      exact ⟨h2, rfl, h4⟩
    · rw [List.getElem?_modify_ne _ _ e] at hv' hr'
      exact h.good n' r' v' hr' hv'

theorem Inv.changeOwn {st : Memory κ} {w : World κ} {oa} (h : Inv st w oa) (k : Nat) (g : Dict κ Int → Dict κ Int) :
    Inv (st.step (.changeOwn k g)) (w.step (.changeOwn k g)) oa := by
  unfold Memory.step World.step
  dsimp only
  cases hk : st.own[k]? with
  | none =>
    have : w.own[k]? = none := List.getElem?_eq_none (by rw [← h.lenOwn]; exact List.getElem?_eq_none_iff.1 hk)
    rw [modify_none this]
    exact h
  | some a =>
    have hlk : k < w.own.length := by rw [← h.lenOwn]; exact (List.getElem?_eq_some_iff.1 hk).1
    obtain ⟨h1, h2⟩ := h.goodOwn k a _ hk (List.getElem?_eq_getElem hlk)
    refine ⟨h.len, h.vars, by simp [h.lenOwn], ?_, ?_⟩
    · intro n r v hr hv
      obtain ⟨k1, k2, k3⟩ := h.good n r v hr hv
      refine ⟨modify_other k1 ?_ _, k2, k3⟩
      intro e
      rw [e, k3] at h2
      cases h2
    · intro k' a' d' ha' hd'
      change (w.own.modify k _)[k']? = some d' at hd'
      change st.own[k']? = some a' at ha'
      by_cases e : k = k'
      · subst e
        rw [hk] at ha'
        cases ha'
        rw [modify_same (List.getElem?_eq_getElem hlk)] at hd'
        cases hd'
        exact ⟨modify_same h1 _, h2⟩
      · rw [List.getElem?_modify_ne _ _ e] at hd'
        obtain ⟨k1, k2⟩ := h.goodOwn k' a' d' ha' hd'
        refine ⟨modify_other k1 ?_ _, k2⟩
        intro e'
        rw [e', k2] at h2
        exact e (Sum.inr.inj h2).symm

theorem select1_made (v : Vocab κ) (c : Sel κ) : select1 v c = mk' (select1 v c).freq (select1 v c).dflt := by
  rcases c with l | l | ⟨a, b⟩
  · cases l <;> rfl
  · cases l <;> rfl
  · rfl

theorem selectTuple_made (v : Vocab κ) (c : Sel κ) (l : List (Sel κ)) :
    selectTuple v (c :: l) = mk' (selectTuple v (c :: l)).freq (selectTuple v (c :: l)).dflt := by
  induction l generalizing v c with
  | nil => exact select1_made v c
  | cons c' l ih => exact ih (select1 v c) c'

theorem Inv.step {st : Memory κ} {w : World κ} {oa} (h : Inv st w oa) {s : Step κ} (hs : ¬ Renames s) :
    ∃ oa', Inv (st.step s) (w.step s) oa' := by
  cases s with
  | dict d dflt => exact h.give (d, dflt)
  | none => exact h.construct ([], false)
  | make k =>
    unfold Memory.step World.step
    dsimp only
    cases hk : st.own[k]? with
    | none =>
      have : w.own[k]? = none := List.getElem?_eq_none (by rw [← h.lenOwn]; exact List.getElem?_eq_none_iff.1 hk)
      rw [this]
      exact ⟨oa, h⟩
    | some a =>
      have hlk : k < w.own.length := by rw [← h.lenOwn]; exact (List.getElem?_eq_some_iff.1 hk).1
      obtain ⟨h1, -⟩ := h.goodOwn k a _ hk (List.getElem?_eq_getElem hlk)
      rw [Option.bind_some, h1, List.getElem?_eq_getElem hlk]
      exact h.construct _
  | getDict n =>
    unfold Memory.step World.step
    dsimp only
    rw [h.load n]
    cases hv : w.vocs[n]? with
    | none => exact ⟨oa, h⟩
    | some v => exact h.give _
  | select n conds =>
    cases conds with
    | nil => exact absurd trivial hs
    | cons c l => exact h.result n _ (fun v => selectTuple_made v c l)
  | freq n => exact absurd trivial hs
  | subvocab n items => exact h.result n _ (fun v => rfl)
  | copy n => exact h.result n _ (fun v => rfl)
  | setItem n x i => exact ⟨oa, h.change n _ _ (fun v => rfl)⟩
  | increment n x i =>
    refine ⟨oa, h.change n _ _ (fun v => ?_)⟩
    unfold Vocab.increment
    dsimp only
    cases v.freq.get? x <;> rfl
  | read n x =>
    refine ⟨oa, h.change n _ _ (fun v => ?_)⟩
    unfold getStr
    dsimp only
    cases v.freq.get? x with
    | some _ => rfl
    | none => cases v with | mk a b c => cases c <;> rfl
  | setFilter n b => exact ⟨oa, h.setFilter n b⟩
  | changeOwn k g => exact ⟨oa, h.changeOwn k g⟩

theorem Inv.run {st : Memory κ} {w : World κ} {oa} (h : Inv st w oa) {p : List (Step κ)} (hp : ∀ s ∈ p, ¬ Renames s) :
    ∃ oa', Inv (st.run p) (w.run p) oa' := by
  induction p generalizing st w oa with
  | nil => exact ⟨oa, h⟩
  | cons s p ih =>
    obtain ⟨oa', h'⟩ := h.step (hp s (List.mem_cons_self ..))
    exact ih h' (fun t ht => hp t (List.mem_cons_of_mem _ ht))

theorem Inv.sees {st : Memory κ} {w : World κ} {oa} (h : Inv st w oa) :
    st.seen = w.vocs.map some ∧ st.seenOwn = w.own.map some := by
  constructor
  · apply List.ext_getElem?
    intro n
    unfold Memory.seen
    rw [List.getElem?_map, List.getElem?_map]
    cases hv : w.vocs[n]? with
    | none => rw [h.var_none hv]; rfl
    | some v =>
      have q := h.load n
      rw [hv, h.var (List.getElem?_eq_some_iff.1 hv).1, Option.bind_some] at q
      rw [h.var (List.getElem?_eq_some_iff.1 hv).1, Option.map_some, Option.map_some, q]
  · apply List.ext_getElem?
    intro k
    unfold Memory.seenOwn
    rw [List.getElem?_map, List.getElem?_map]
    cases hk : st.own[k]? with
    | none =>
      have : w.own[k]? = none := List.getElem?_eq_none (by rw [← h.lenOwn]; exact List.getElem?_eq_none_iff.1 hk)
      rw [this]
      rfl
    | some a =>
      have hlk : k < w.own.length := by rw [← h.lenOwn]; exact (List.getElem?_eq_some_iff.1 hk).1
      obtain ⟨h1, -⟩ := h.goodOwn k a _ hk (List.getElem?_eq_getElem hlk)
      rw [List.getElem?_eq_getElem hlk, Option.map_some, Option.map_some, h1]

/-- **C239** (partial: for programs without the two calls `v.freq` and `v[()]`, see `C239_false`): after any program that makes
vocabularies from dictionaries and from each other, and changes vocabularies and dictionaries in between, every vocabulary and every
dictionary is what it would be if no step had changed anything but what it is about. -/
theorem C239_partial (p : List (Step κ)) (hp : ∀ s ∈ p, ¬ Renames s) : C239_claim p := by
  have h : Inv (Memory.start : Memory κ) ⟨[], []⟩ (fun _ => .inr 0) :=
    ⟨rfl, rfl, rfl, fun n r v hr => by simp [Memory.start] at hr, fun k a d ha => by simp [Memory.start] at ha⟩
  obtain ⟨_, h'⟩ := h.run hp
  exact h'.sees

/-! ### The two calls that return the vocabulary itself -/

theorem vars_step (st : Memory κ) (s : Step κ) : ∃ l, (st.step s).vars = st.vars ++ l := by
  have hres : ∀ n f, ∃ l, (st.result n f).vars = st.vars ++ l := by
    intro n f
    unfold Memory.result
    split
    · exact ⟨[], by simp⟩
    · exact ⟨_, rfl⟩
  have hchg : ∀ n g, ∃ l, (st.change n g).vars = st.vars ++ l := by
    intro n g
    unfold Memory.change
    split <;> exact ⟨[], by simp⟩
  have hsame : ∀ n, ∃ l, (st.same n).vars = st.vars ++ l := by
    intro n
    unfold Memory.same
    split
    · exact ⟨[], by simp⟩
    · exact ⟨_, rfl⟩
  cases s with
  | dict d dflt => exact ⟨[], by simp [Memory.step, Memory.give]⟩
  | none => exact ⟨_, rfl⟩
  | make k =>
    unfold Memory.step
    dsimp only
    split
    · exact ⟨[], by simp⟩
    · exact ⟨_, rfl⟩
  | getDict n =>
    unfold Memory.step
    dsimp only
    split <;> exact ⟨[], by simp [Memory.give]⟩
  | select n conds => cases conds with
    | nil => exact hsame n
    | cons c l => exact hres n _
  | freq n => exact hsame n
  | subvocab n items => exact hres n _
  | copy n => exact hres n _
  | setItem n x i => exact hchg n _
  | increment n x i => exact hchg n _
  | read n x => exact hchg n _
  | setFilter n b =>
    unfold Memory.step
    dsimp only
    split <;> exact ⟨[], by simp⟩
  | changeOwn k g =>
    unfold Memory.step
    dsimp only
    split <;> exact ⟨[], by simp⟩

theorem vars_run (st : Memory κ) (p : List (Step κ)) : ∃ l, (st.run p).vars = st.vars ++ l := by
  induction p generalizing st with
  | nil => exact ⟨[], by simp [Memory.run]⟩
  | cons s p ih =>
    obtain ⟨l, hl⟩ := vars_step st s
    obtain ⟨l', hl'⟩ := ih (st.step s)
    exact ⟨l ++ l', by rw [← List.append_assoc, ← hl]; exact hl'⟩

theorem named_twice {α : Type} {vs : List α} {n : Nat} (h : n < vs.length) (l : List α) :
    ((vs ++ [vs[n]]) ++ l)[vs.length]? = ((vs ++ [vs[n]]) ++ l)[n]? := by
  rw [List.getElem?_append_left (l₁ := vs ++ [vs[n]]) (by simp), List.getElem?_append_left (l₁ := vs ++ [vs[n]]) (by simp; omega),
    List.getElem?_append_left h, List.getElem?_concat_length, List.getElem?_eq_getElem h]

/-- **C239** (the two calls): what `v.freq` and `v[()]` return is seen to be the same as `v` at all later times, whatever the program
does to either of them. -/
theorem C239_same (before after : List (Step κ)) (s : Step κ) (n : Nat) (hs : s = .freq n ∨ s = .select n [])
    (hn : n < (Memory.start.run before).vars.length) :
    let new := (Memory.start.run before).vars.length
    let seen := (Memory.start.run (before ++ s :: after)).seen
    new < seen.length ∧ seen[new]? = seen[n]? := by
  intro new seen
  have hrun : Memory.start.run (before ++ s :: after) = ((Memory.start.run before).same n).run after := by
    unfold Memory.run
    rw [List.foldl_append, List.foldl_cons]
    rcases hs with rfl | rfl <;> rfl
  obtain ⟨l, hl⟩ := vars_run ((Memory.start.run before).same n) after
  have hv : ((Memory.start.run before).same n).vars = (Memory.start.run before).vars ++ [(Memory.start.run before).vars[n]] := by
    unfold Memory.same
    rw [List.getElem?_eq_getElem hn]
  have hseen : seen = (((Memory.start.run before).vars ++ [(Memory.start.run before).vars[n]]) ++ l).map
      (((Memory.start.run before).same n).run after).load := by
    show (Memory.start.run (before ++ s :: after)).seen = _
    rw [hrun]
    unfold Memory.seen
    rw [hl, hv]
  constructor
  · rw [hseen]
    simp [new]
  · rw [hseen, List.getElem?_map, List.getElem?_map]
    exact congrArg _ (named_twice hn l)

/-- A change of `v.freq` is a change of `v`, and so is a change of `v[()]`. -/
theorem C239_false :
    ¬ C239_claim ([.dict [(1, 5), (2, 3)] false, .make 0, .freq 0, .setItem 1 1 7] : List (Step Nat)) ∧
    ¬ C239_claim ([.dict [(1, 5), (2, 3)] false, .make 0, .select 0 [], .increment 1 2 1] : List (Step Nat)) := by
  constructor <;> intro h <;> exact absurd h.1 (by decide +kernel)

/-- A program with changes of a selection, of a copy, of the dictionary it started from and of one that was read out. -/
example : C239_claim ([.dict [(1, 5), (2, 3)] true, .make 0, .copy 0, .select 0 [.items [1], .freqs [5]], .getDict 0, .read 0 9,
    .setItem 1 1 7, .increment 2 1 1, .changeOwn 0 (fun _ => []), .changeOwn 1 (fun d => d.set 4 4), .setFilter 2 false] :
    List (Step Nat)) :=
  C239_partial _ (by simp [Renames])

example : (Memory.start.run ([.dict [(1, 5), (2, 3)] true, .make 0, .copy 0, .select 0 [.items [1], .freqs [5]], .getDict 0, .read 0 9,
    .setItem 1 1 7, .increment 2 1 1, .changeOwn 0 (fun _ => []), .changeOwn 1 (fun d => d.set 4 4), .setFilter 2 false] :
    List (Step Nat))).seen =
    [some ⟨[(1, 5), (2, 3), (9, 0)], true, true⟩, some ⟨[(1, 7), (2, 3)], true, true⟩, some ⟨[(1, 6)], false, false⟩] := by
  decide +kernel

example : 0 < (Memory.start.run ([.dict [(1, 5), (2, 3)] false, .make 0] : List (Step Nat))).vars.length := by decide +kernel

end Verif.Vocab.Mem
