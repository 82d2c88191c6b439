import Verif.Flow.Colloc
import Verif.Front.PropsTokens
import Verif.Matrix.PropsMerge

/-!
# Properties of `make_token_colloc`: C115
-/

set_option linter.unusedSectionVars false

namespace Verif.Flow
open Verif.Py Verif.Vocab Verif.Matrix Verif.Front
open Verif.Vocab.Plain (Str)
open Verif.Items (TypeN TokenN)

/-- Every row of a nested dict has an entry. -/
def Full (d : Dict Str (Dict Str Int)) : Prop := ∀ s ∈ Dict.keys d, ∃ c p, at2 d s c = some p

theorem full_writes (ws : List (Str × Str × Int)) : WF2 (ws.foldl Front.write []) ∧ Full (ws.foldl Front.write []) := by
  induction ws using List.reverseRecOn with
  | nil => exact ⟨⟨by simp [Dict.WF, Dict.keys], by simp⟩, by intro s hs; simp [Dict.keys] at hs⟩
  | append_singleton ws w ih =>
    rw [List.foldl_append, List.foldl_cons, List.foldl_nil]
    obtain ⟨s, c, p⟩ := w
    refine ⟨WF2_set ih.1 s c p, ?_⟩
    intro s' hs'
    unfold Front.write at hs' ⊢
    simp only at hs' ⊢
    by_cases h : s' = s
    · subst h
      exact ⟨c, p, by rw [at2_set]; simp⟩
    · have : s' ∈ Dict.keys (ws.foldl Front.write []) := by
        have h2 := (Dict.get?_isSome_iff _ _).2 hs'
        rw [Dict.get?_set, if_neg (fun e => h e.symm)] at h2
        exact (Dict.get?_isSome_iff _ _).1 h2
      obtain ⟨c', p', hcp⟩ := ih.2 s' this
      refine ⟨c', p', ?_⟩
      rw [at2_set, if_neg (fun e => h e.1.symm)]
      exact hcp

theorem mem_keys_of_at2 {d : Dict Str (Dict Str Int)} {s c : Str} {p : Int} (h : at2 d s c = some p) :
    s ∈ Dict.keys d ∧ c ∈ d.flatMap (fun q => Dict.keys q.2) := by
  unfold at2 at h
  obtain ⟨row, h1, h2⟩ := Option.bind_eq_some_iff.1 h
  refine ⟨(Dict.get?_isSome_iff _ _).1 (by rw [h1]; rfl), List.mem_flatMap.2 ⟨(s, row), Dict.mem_of_get? h1, ?_⟩⟩
  exact (Dict.get?_isSome_iff _ _).1 (by rw [h2]; rfl)

theorem dictToSp_storedEntry {κ : Type} [LinearOrder κ] {d : Dict κ (Dict κ Int)} (hd : WF2 d) {rows cols : List κ}
    (hr : rows.Nodup) (hc : cols.Nodup)
    (hcov : ∀ r c v, at2 d r c = some v → r ∈ rows ∧ c ∈ cols) (hne : ∃ r c v, at2 d r c = some v) :
    ∃ s, dictToSp d rows cols = .ok s ∧ Valid (⟨.sp s, rows, cols⟩ : Mtx κ Int) ∧
      ∀ r c, storedEntry (⟨.sp s, rows, cols⟩ : Mtx κ Int) r c = at2 d r c := by
  obtain ⟨s, h1, h2, h3, h4, h5, h6⟩ := dictToSp_spec hd (uniform_int d) hr hc hcov hne
  refine ⟨s, h1, ⟨h3, h4, hr, hc, by intro t ht; cases ht; exact h5⟩, ?_⟩
  intro r c
  by_cases hrc : r ∈ rows ∧ c ∈ cols
  · obtain ⟨i, hi⟩ := getElem?_of_mem' hrc.1
    obtain ⟨j, hj⟩ := getElem?_of_mem' hrc.2
    rw [storedEntry_of (m := ⟨.sp s, rows, cols⟩) hr hc rfl hi hj, h6 i j r c hi hj]
  · have h7 : at2 d r c = none := by
      cases hv : at2 d r c with
      | none => rfl
      | some v => exact absurd (hcov r c v hv) hrc
    rw [h7]
    cases hv : storedEntry (⟨.sp s, rows, cols⟩ : Mtx κ Int) r c with
    | none => rfl
    | some v => exact absurd (storedEntry_names hv) hrc

/-- A token of the type with the string `s` has the collocate `c` at the position `p` within the spans, and the
vocabulary lets it pass. -/
def Records (lspan rspan : Nat) (fmt : Str) (v : Vocab Str) (n : TypeN) (s c : Str) (p : Int) : Prop :=
  ∃ t ∈ n.tokens, t.token = .ok s ∧ Within lspan rspan fmt (Dict.keys v.freq) t c p

/-- A type all of whose tokens can be written. -/
def Readable (lspan rspan : Nat) (fmt : Str) (v : Vocab Str) (n : TypeN) : Prop :=
  ∃ d, readTokenColloc lspan rspan fmt (Dict.keys v.freq) n = .ok d

/-- **C115 (partial).** For a type with at least one recorded collocate: a matrix whose rows are the strings of the
tokens with a collocate, sorted, whose columns are the vocabulary, or without one the recorded collocates, sorted, and
whose entries are positions of the collocates (the last of them in the order of `C105_repeated`).  Missing: tokens
without collocate have no row (`C115_false`). -/
theorem C115_matrix_partial {lspan rspan : Nat} {fmt : Str} {v : Vocab Str} (hv : v.freq.WF) {n : TypeN}
    (hn : Readable lspan rspan fmt v n) (hne : ∃ s c p, Records lspan rspan fmt v n s c p) :
    ∃ m, typeColloc lspan rspan fmt v n = .ok m ∧ Valid m ∧
      m.rows.Pairwise (· ≤ ·) ∧ m.cols.Pairwise (· ≤ ·) ∧
      (∀ s, s ∈ m.rows ↔ ∃ c p, Records lspan rspan fmt v n s c p) ∧
      (∀ c, c ∈ m.cols ↔ if v.freq = [] then ∃ s p, Records lspan rspan fmt v n s c p else c ∈ v.freq.keys) ∧
      (∀ s c p, storedEntry m s c = some p → Records lspan rspan fmt v n s c p) ∧
      (∀ s c p, Records lspan rspan fmt v n s c p → storedEntry m s c ≠ none) := by
  obtain ⟨d, hd⟩ := hn
  obtain ⟨ws, _, hdw⟩ := readTokenColloc_inv hd
  have hfull := full_writes ws.flatten
  rw [← hdw] at hfull
  obtain ⟨hwf, hfull⟩ := hfull
  have hpos := C105_positions_partial hd
  have hsome : ∀ s c p, at2 d s c = some p → Records lspan rspan fmt v n s c p := by
    intro s c p h
    obtain ⟨t, ht, h1, h2⟩ := (hpos s c).1 p h
    exact ⟨t, ht, h1, h2⟩
  have hrec : ∀ s c p, Records lspan rspan fmt v n s c p → at2 d s c ≠ none := by
    rintro s c p ⟨t, ht, h1, h2⟩
    exact (hpos s c).2 ⟨t, ht, h1, p, h2⟩
  have hobs : ∀ c, c ∈ observed d ↔ ∃ s p, at2 d s c = some p := by
    intro c
    unfold observed
    rw [(sortedBy_perm _ _).mem_iff, List.mem_dedup]
    constructor
    · intro hc
      obtain ⟨⟨s, row⟩, hm, hc⟩ := List.mem_flatMap.1 hc
      have h1 := Dict.get?_of_mem hwf.1 hm
      obtain ⟨p, hp⟩ := Option.isSome_iff_exists.1 ((Dict.get?_isSome_iff _ _).2 hc)
      exact ⟨s, p, by unfold at2; rw [h1]; exact hp⟩
    · rintro ⟨s, p, h⟩
      exact (mem_keys_of_at2 h).2
  have hempty : Vocab.len v = 0 ↔ v.freq = [] := by simp [Vocab.len, Dict.keys]
  have hcols : ∀ c, c ∈ collocCols v d ↔ if v.freq = [] then ∃ s p, at2 d s c = some p else c ∈ v.freq.keys := by
    intro c
    unfold collocCols
    by_cases h : v.freq = []
    · rw [if_pos (hempty.2 h), if_pos h]; exact hobs c
    · rw [if_neg (fun e => h (hempty.1 e)), if_neg h]
      exact (sortedBy_perm _ _).mem_iff
  have hrn : (collocRows d).Nodup := (sortedBy_perm _ _).nodup_iff.2 hwf.1
  have hcn : (collocCols v d).Nodup := by
    unfold collocCols
    split
    · exact (sortedBy_perm _ _).nodup_iff.2 (List.nodup_dedup _)
    · exact (sortedBy_perm _ _).nodup_iff.2 hv
  have hrows : ∀ s, s ∈ collocRows d ↔ ∃ c p, at2 d s c = some p := by
    intro s
    unfold collocRows
    rw [(sortedBy_perm _ _).mem_iff]
    exact ⟨hfull s, fun ⟨c, p, h⟩ => (mem_keys_of_at2 h).1⟩
  have hcov : ∀ s c p, at2 d s c = some p → s ∈ collocRows d ∧ c ∈ collocCols v d := by
    intro s c p h
    refine ⟨(hrows s).2 ⟨c, p, h⟩, (hcols c).2 ?_⟩
    split
    · exact ⟨s, p, h⟩
    · next hne =>
      obtain ⟨t, _, _, hw⟩ := hsome s c p h
      rcases hw.1 with h0 | h0
      · exact absurd (by simpa [Dict.keys] using h0) hne
      · exact h0
  obtain ⟨s0, c0, p0, h0⟩ := hne
  obtain ⟨p1, hp1⟩ := Option.ne_none_iff_exists'.1 (hrec s0 c0 p0 h0)
  obtain ⟨s, e1, e2, e3⟩ := dictToSp_storedEntry hwf hrn hcn hcov ⟨s0, c0, p1, hp1⟩
  refine ⟨⟨.sp s, collocRows d, collocCols v d⟩, ?_, e2, sortedBy_pairwise id _, ?_, ?_, ?_, ?_, ?_⟩
  · unfold typeColloc
    rw [hd]
    have : collocMatrix v d = .ok ⟨.sp s, collocRows d, collocCols v d⟩ := by
      unfold collocMatrix
      simp only [e1, bind, Except.bind]
      exact mkMtx_sp e2.nr e2.nc
    simp only [this]
  · show (collocCols v d).Pairwise (· ≤ ·)
    unfold collocCols observed itemList
    split <;> exact sortedBy_pairwise id _
  · intro s'
    rw [hrows]
    constructor
    · rintro ⟨c, p, h⟩; exact ⟨c, p, hsome _ _ _ h⟩
    · rintro ⟨c, p, h⟩
      obtain ⟨q, hq⟩ := Option.ne_none_iff_exists'.1 (hrec _ _ _ h)
      exact ⟨c, q, hq⟩
  · intro c
    show c ∈ collocCols v d ↔ _
    rw [hcols]
    split
    · constructor
      · rintro ⟨s, p, h⟩; exact ⟨s, p, hsome _ _ _ h⟩
      · rintro ⟨s, p, h⟩
        obtain ⟨q, hq⟩ := Option.ne_none_iff_exists'.1 (hrec _ _ _ h)
        exact ⟨s, q, hq⟩
    · exact Iff.rfl
  · intro s' c p h
    rw [e3] at h
    exact hsome _ _ _ h
  · intro s' c p h
    rw [e3]
    exact hrec _ _ _ h

/-- A type without recorded collocates raises a `ValueError`. -/
theorem C115_nothing {lspan rspan : Nat} {fmt : Str} {v : Vocab Str} {n : TypeN} (hn : Readable lspan rspan fmt v n)
    (h : ∀ s c p, ¬ Records lspan rspan fmt v n s c p) : typeColloc lspan rspan fmt v n = .error (.matrix .valueError) := by
  obtain ⟨d, hd⟩ := hn
  obtain ⟨ws, _, hdw⟩ := readTokenColloc_inv hd
  have hwf := (full_writes ws.flatten).1
  rw [← hdw] at hwf
  have hnone : ∀ s c, at2 d s c = none := by
    intro s c
    cases hv : at2 d s c with
    | none => rfl
    | some p =>
      obtain ⟨t, ht, h1, h2⟩ := (C105_positions_partial hd s c).1 p hv
      exact absurd ⟨t, ht, h1, h2⟩ (h s c p)
  unfold typeColloc
  rw [hd]
  have : collocMatrix v d = .error .valueError := by
    unfold collocMatrix
    simp only [C21_empty hwf hnone, bind, Except.bind]
  simp only [this]

/-- All types: the call succeeds iff every type has a matrix, and then these are the matrices, by the name of the type;
otherwise the exception of the first type that fails is raised. -/
theorem C115_types (lspan rspan : Nat) (fmt : Str) (v : Vocab Str) (nodes : Dict Str TypeN)
    (attr : Option (Dict Str TypeN)) (hne : nodes ≠ []) :
    (∀ r, makeTokenColloc lspan rspan fmt v attr (some nodes) = .ok r ↔
      List.Forall₂ (fun p q => q.1 = p.1 ∧ typeColloc lspan rspan fmt v p.2 = .ok q.2) nodes r) ∧
    (∀ e, makeTokenColloc lspan rspan fmt v attr (some nodes) = .error e ↔
      ∃ pre p post, nodes = pre ++ p :: post ∧ (∀ q ∈ pre, ∃ m, typeColloc lspan rspan fmt v q.2 = .ok m) ∧
        typeColloc lspan rspan fmt v p.2 = .error e) := by
  have hloop : makeTokenColloc lspan rspan fmt v attr (some nodes) = collocLoop lspan rspan fmt v nodes := by
    cases nodes with
    | nil => exact absurd rfl hne
    | cons p nodes => rfl
  rw [hloop]
  clear hne hloop
  unfold collocLoop
  induction nodes with
  | nil =>
    refine ⟨fun r => ?_, fun e => ?_⟩
    · simp only [List.mapM_nil, pure, Except.pure, Except.ok.injEq, List.forall₂_nil_left_iff]
      exact eq_comm
    · simp only [List.mapM_nil, pure, Except.pure, reduceCtorEq, false_iff]
      rintro ⟨pre, p, post, h, _⟩
      simp at h
  | cons p nodes ih =>
    obtain ⟨ih1, ih2⟩ := ih
    cases hp : typeColloc lspan rspan fmt v p.2 with
    | error e0 =>
      refine ⟨fun r => ?_, fun e => ?_⟩
      · simp only [List.mapM_cons, hp, bind, Except.bind, reduceCtorEq, false_iff]
        intro h
        cases h with
        | cons h _ => rw [hp] at h; exact (nomatch h.2)
      · simp only [List.mapM_cons, hp, bind, Except.bind, Except.error.injEq]
        constructor
        · rintro rfl; exact ⟨[], p, nodes, rfl, by simp, hp⟩
        · rintro ⟨pre, q, post, h, h1, h2⟩
          cases pre with
          | nil =>
            simp only [List.nil_append, List.cons.injEq] at h
            rw [← h.1, hp] at h2
            exact Except.error.inj h2
          | cons a pre =>
            simp only [List.cons_append, List.cons.injEq] at h
            obtain ⟨m, hm⟩ := h1 a (by simp)
            rw [← h.1, hp] at hm; cases hm
    | ok m0 =>
      have hstep : ∀ (X : Except CErr (List (Str × Mtx Str Int))), X = List.mapM (fun p : Str × TypeN => do
          let m ← typeColloc lspan rspan fmt v p.2
          return (p.1, m)) nodes → List.mapM (fun p : Str × TypeN => do
          let m ← typeColloc lspan rspan fmt v p.2
          return (p.1, m)) (p :: nodes) = X.map (fun l => (p.1, m0) :: l) := by
        rintro X rfl
        rw [List.mapM_cons]
        simp only [hp, bind, Except.bind, pure, Except.pure]
        split <;> simp_all [Except.map]
      rw [hstep _ rfl]
      refine ⟨fun r => ?_, fun e => ?_⟩
      · constructor
        · intro h
          cases hX : List.mapM (fun p : Str × TypeN => do
              let m ← typeColloc lspan rspan fmt v p.2
              return (p.1, m)) nodes with
          | error e => rw [hX] at h; cases h
          | ok l =>
            rw [hX] at h
            rw [← Except.ok.inj h]
            exact .cons ⟨rfl, hp⟩ ((ih1 l).1 hX)
        · intro h
          cases h with
          | cons h1 h2 =>
            rename_i q r
            rw [(ih1 r).2 h2]
            obtain ⟨q1, q2⟩ := q
            simp only [hp, Except.ok.injEq] at h1
            rw [h1.1, ← h1.2]; rfl
      · constructor
        · intro h
          cases hX : List.mapM (fun p : Str × TypeN => do
              let m ← typeColloc lspan rspan fmt v p.2
              return (p.1, m)) nodes with
          | ok l => rw [hX] at h; cases h
          | error e' =>
            rw [hX] at h
            obtain rfl := Except.error.inj h
            obtain ⟨pre, q, post, h1, h2, h3⟩ := (ih2 e').1 hX
            refine ⟨p :: pre, q, post, by rw [h1]; rfl, ?_, h3⟩
            intro a ha
            rcases List.mem_cons.1 ha with rfl | ha
            · exact ⟨m0, hp⟩
            · exact h2 a ha
        · rintro ⟨pre, q, post, h, h1, h2⟩
          cases pre with
          | nil =>
            simp only [List.nil_append, List.cons.injEq] at h
            rw [← h.1, hp] at h2; cases h2
          | cons a pre =>
            simp only [List.cons_append, List.cons.injEq] at h
            rw [(ih2 e).2 ⟨pre, q, post, h.2, fun b hb => h1 b (by simp [hb]), h2⟩]
            rfl

/-- Without nodes the attribute is needed, which no call sets (`C113_unchanged`). -/
theorem C115_attribute (lspan rspan : Nat) (fmt : Str) (v : Vocab Str) (given : Option (Dict Str TypeN))
    (h : given = none ∨ given = some []) : makeTokenColloc lspan rspan fmt v none given = .error .attribute := by
  rcases h with rfl | rfl <;> rfl

/-- Where the attribute is set by the caller, it is used just as nodes that are given. -/
theorem C115_attribute_used (lspan rspan : Nat) (fmt : Str) (v : Vocab Str) (nodes : Dict Str TypeN) (hn : nodes ≠ [])
    (given : Option (Dict Str TypeN)) (h : given = none ∨ given = some []) (other : Option (Dict Str TypeN)) :
    makeTokenColloc lspan rspan fmt v (some nodes) given = makeTokenColloc lspan rspan fmt v other (some nodes) := by
  cases nodes with
  | nil => exact absurd rfl hn
  | cons p nodes => rcases h with rfl | rfl <;> rfl

/-- A token without collocates. -/
def loneToken : TokenN :=
  ⟨[("word".toList, some "y".toList), ("fid".toList, some "f".toList), ("lid".toList, some "4".toList),
    ("format".toList, some "word/fid/lid".toList)], some [], some []⟩

/-- **C115 is false**: of the two tokens of a type one has no row; and a type with only that token makes the call fail
for all types. -/
theorem C115_false :
    (∃ m, typeColloc 5 5 "word".toList Vocab.empty ⟨[], [twiceToken, loneToken]⟩ = .ok m ∧ m.rows.length = 1) ∧
    makeTokenColloc 5 5 "word".toList Vocab.empty none
      (some [("x".toList, ⟨[], [twiceToken]⟩), ("y".toList, ⟨[], [loneToken]⟩)]) = .error (.matrix .valueError) := by
  refine ⟨⟨⟨.sp ⟨.csr, 1, 1, [((0, 0), -2)]⟩, ["x/f/9".toList], ["a".toList]⟩, ?_, rfl⟩, ?_⟩
  · rfl
  · rfl

/-- Non-vacuity of `C115_matrix_partial`, with the vocabulary that holds "rode" and "een". -/
example : Readable 5 5 "word".toList ⟨[("rode".toList, 1), ("een".toList, 2)], true, false⟩ ⟨[], [sampleToken, loneToken]⟩ ∧
    ∃ s c p, Records 5 5 "word".toList ⟨[("rode".toList, 1), ("een".toList, 2)], true, false⟩ ⟨[], [sampleToken, loneToken]⟩ s c p :=
  ⟨⟨[("appel/noun/f1/3".toList, [("rode".toList, -1)])], by decide +kernel⟩,
    "appel/noun/f1/3".toList, "rode".toList, -1, sampleToken, by simp, by decide +kernel,
    Or.inr (by decide +kernel), Or.inl ⟨_, [("word".toList, some "rode".toList)], 0, rfl, by decide, rfl, by decide +kernel, rfl⟩⟩

end Verif.Flow
