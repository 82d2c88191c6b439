import Verif.Flow.PropsAgain

/-!
# C211: occurrences with the same identifier

The identifier of a token has the name of its file without the extension (`/repo/nephosem/core/handler.py:321`), so lines of `a.txt`
and `a.xml` may have one identifier (`C92_false`).
-/

set_option linter.unusedSectionVars false

namespace Verif.Flow
open Verif.Py Verif.Vocab Verif.Corpus Verif.Window Verif.Engine Verif.Matrix

variable {ℓ μ κ φ : Type} [LinearOrder κ]

/-- The last of the tokens with its name. -/
def IsLast (toks : List (Tok κ)) (t : Tok κ) : Prop :=
  ∃ l₁ l₂, toks = l₁ ++ t :: l₂ ∧ ∀ t' ∈ l₂, t'.name ≠ t.name

theorem isLast_snoc {toks : List (Tok κ)} {t u : Tok κ} :
    IsLast (toks ++ [t]) u ↔ u = t ∨ (IsLast toks u ∧ t.name ≠ u.name) := by
  constructor
  · rintro ⟨l₁, l₂, e, h⟩
    rcases List.eq_nil_or_concat l₂ with rfl | ⟨l, a, rfl⟩
    · have := (List.append_inj' e rfl).2
      simp only [List.cons.injEq, and_true] at this
      exact Or.inl this.symm
    · rw [List.concat_eq_append, ← List.cons_append, ← List.append_assoc] at e
      obtain ⟨e1, e2⟩ := List.append_inj' e rfl
      simp only [List.cons.injEq, and_true] at e2
      subst e2
      exact Or.inr ⟨⟨l₁, l, e1, fun t' ht' => h t' (by simp [ht'])⟩, h t (by simp)⟩
  · rintro (rfl | ⟨⟨l₁, l₂, rfl, h⟩, hn⟩)
    · exact ⟨toks, [], rfl, by simp⟩
    · refine ⟨l₁, l₂ ++ [t], by simp, fun t' ht' => ?_⟩
      rcases List.mem_append.1 ht' with ht' | ht'
      · exact h t' ht'
      · rw [List.mem_singleton.1 ht']; exact hn

theorem IsLast.mem {toks : List (Tok κ)} {t : Tok κ} (h : IsLast toks t) : t ∈ toks := by
  obtain ⟨l₁, l₂, rfl, _⟩ := h
  simp

/-- Every name has a last token. -/
theorem exists_last {toks : List (Tok κ)} {t : Tok κ} (h : t ∈ toks) : ∃ u, IsLast toks u ∧ u.name = t.name := by
  induction toks using List.reverseRecOn with
  | nil => exact absurd h (by simp)
  | append_singleton toks a ih =>
    by_cases e : a.name = t.name
    · exact ⟨a, isLast_snoc.2 (Or.inl rfl), e⟩
    · rcases List.mem_append.1 h with h | h
      · obtain ⟨u, hu, hn⟩ := ih h
        exact ⟨u, isLast_snoc.2 (Or.inr ⟨hu, fun e' => e (e'.trans hn)⟩), hn⟩
      · rw [List.mem_singleton.1 h] at e
        exact absurd rfl e

/-- The dict of tokens has for every name the last token. -/
theorem get?_toks (toks : List (Tok κ)) (n : κ) (row : Dict κ Int) :
    (Dict.ofPairs (toks.map (fun t => (t.name, tokRow t)))).get? n = some row ↔
      ∃ t, IsLast toks t ∧ t.name = n ∧ tokRow t = row := by
  induction toks using List.reverseRecOn with
  | nil =>
    constructor
    · intro h; cases h
    · rintro ⟨t, h, -⟩; exact absurd h.mem (by simp)
  | append_singleton toks t ih =>
    have hof : Dict.ofPairs ((toks ++ [t]).map (fun t => (t.name, tokRow t)))
        = Dict.set (Dict.ofPairs (toks.map (fun t => (t.name, tokRow t)))) t.name (tokRow t) := by
      unfold Dict.ofPairs
      rw [List.map_append, List.foldl_append]
      rfl
    rw [hof, Dict.get?_set]
    by_cases e : t.name = n
    · rw [if_pos e]
      constructor
      · intro h; exact ⟨t, isLast_snoc.2 (Or.inl rfl), e, Option.some.inj h⟩
      · rintro ⟨u, hu, hn, rfl⟩
        rcases isLast_snoc.1 hu with rfl | ⟨-, hne⟩
        · rfl
        · exact absurd (e.trans hn.symm) hne
    · rw [if_neg e, ih]
      constructor
      · rintro ⟨u, hu, hn, hr⟩
        exact ⟨u, isLast_snoc.2 (Or.inr ⟨hu, fun e' => e (e'.trans hn)⟩), hn, hr⟩
      · rintro ⟨u, hu, hn, hr⟩
        rcases isLast_snoc.1 hu with rfl | ⟨hu, -⟩
        · exact absurd hn e
        · exact ⟨u, hu, hn, hr⟩

theorem keys_toks (toks : List (Tok κ)) (n : κ) :
    n ∈ (Dict.ofPairs (toks.map (fun t => (t.name, tokRow t)))).keys ↔ ∃ t ∈ toks, t.name = n := by
  rw [← Dict.get?_isSome_iff, Option.isSome_iff_exists]
  constructor
  · rintro ⟨row, h⟩
    obtain ⟨t, ht, hn, -⟩ := (get?_toks toks n row).1 h
    exact ⟨t, ht.mem, hn⟩
  · rintro ⟨t, ht, rfl⟩
    obtain ⟨u, hu, hn⟩ := exists_last ht
    exact ⟨_, (get?_toks toks _ _).2 ⟨u, hu, hn, rfl⟩⟩

/-- A context is empty iff nothing occurs in it. -/
theorem context_ne (t : Tok κ) : (t.left ≠ [] ∨ t.right ≠ []) ↔ ∃ c d, OccursAt t c d := by
  constructor
  · rintro (h | h)
    · obtain ⟨c, hc⟩ := List.exists_mem_of_ne_nil _ h
      obtain ⟨i, hi⟩ := List.mem_iff_getElem?.1 hc
      exact ⟨c, _, Or.inl ⟨i, hi, rfl⟩⟩
    · obtain ⟨c, hc⟩ := List.exists_mem_of_ne_nil _ h
      obtain ⟨i, hi⟩ := List.mem_iff_getElem?.1 hc
      exact ⟨c, _, Or.inr ⟨i, hi, rfl⟩⟩
  · rintro ⟨c, d, ⟨i, hi, -⟩ | ⟨i, hi, -⟩⟩
    · exact Or.inl (List.ne_nil_of_mem (List.mem_of_getElem? hi))
    · exact Or.inr (List.ne_nil_of_mem (List.mem_of_getElem? hi))

theorem mem_tokRow_keys (t : Tok κ) (c : κ) : c ∈ (tokRow t).keys ↔ ∃ d, OccursAt t c d := by
  rw [← Dict.get?_isSome_iff]
  have h := (tokRow_spec t c).1
  cases hg : (tokRow t).get? c with
  | none => simpa using h.1 hg
  | some d => simpa using ⟨d, ((tokRow_spec t c).2 d hg).1⟩

/-- **C211**, exactly, for all lists of tokens, whatever their names: there is one row for each name, it is that of the last token with
this name, and there is a column for each collocate of any token. -/
theorem C211_exact {toks : List (Tok κ)} {order : List κ → List κ} (horder : ∀ l, (order l).Perm l)
    (hne : ∃ t, IsLast toks t ∧ (t.left ≠ [] ∨ t.right ≠ [])) :
    ∃ m, nodesToMatrix toks order = .ok m ∧ Valid m ∧ (∀ n, n ∈ m.rows ↔ ∃ t ∈ toks, t.name = n) ∧
      (∀ c, c ∈ m.cols ↔ ∃ t ∈ toks, ∃ d, OccursAt t c d) ∧
      ∀ t, IsLast toks t → ∀ c, (storedEntry m t.name c = none ↔ ∀ d, ¬ OccursAt t c d) ∧
        ∀ d, storedEntry m t.name c = some d → OccursAt t c d ∧ ∀ d', OccursAt t c d' → d' ≤ d := by
  let D := Dict.ofPairs (toks.map (fun t => (t.name, tokRow t)))
  let C := order (toks.flatMap (fun t => (tokRow t).keys)).dedup
  have hwf : Dict.WF D := Dict.WF_ofPairs _
  have hnd : D.keys.Nodup := hwf
  have hat : ∀ t, IsLast toks t → ∀ c, at2 D t.name c = (tokRow t).get? c := by
    intro t ht c; unfold at2; rw [(get?_toks toks t.name (tokRow t)).2 ⟨t, ht, rfl, rfl⟩]; rfl
  have hat' : ∀ r c v, at2 D r c = some v → ∃ t, IsLast toks t ∧ t.name = r ∧ (tokRow t).get? c = some v := by
    intro r c v h
    unfold at2 at h
    cases hr : Dict.get? D r with
    | none => rw [hr] at h; cases h
    | some row =>
      rw [hr] at h
      obtain ⟨t, ht, hn, rfl⟩ := (get?_toks toks r row).1 hr
      exact ⟨t, ht, hn, h⟩
  have hW2 : WF2 D := by
    refine ⟨hwf, ?_⟩
    intro p hp
    obtain ⟨t, -, -, h⟩ := (get?_toks toks p.1 p.2).1 (Dict.get?_of_mem hwf hp)
    rw [← h]
    exact WF_tokRow t
  have hmemc : ∀ c, c ∈ C ↔ ∃ t ∈ toks, c ∈ (tokRow t).keys := by
    intro c
    rw [(horder _).mem_iff, List.mem_dedup, List.mem_flatMap]
  have hcnd : C.Nodup := (horder _).nodup_iff.2 (List.nodup_dedup _)
  have hex : ∃ r c v, at2 D r c = some v := by
    obtain ⟨t, ht, h⟩ := hne
    obtain ⟨c, d, hcd⟩ := (context_ne t).1 h
    cases hg : (tokRow t).get? c with
    | none => exact absurd hcd ((tokRow_spec t c).1.1 hg d)
    | some v => exact ⟨t.name, c, v, by rw [hat t ht, hg]⟩
  obtain ⟨s, h1, h2, h3, h4, h5, h6⟩ := dictToSp_spec (rows := D.keys) hW2 (uniform_int _) hnd hcnd (by
    intro r c v h
    obtain ⟨t, ht, rfl, hv⟩ := hat' r c v h
    refine ⟨(keys_toks toks t.name).2 ⟨t, ht.mem, rfl⟩, (hmemc c).2 ⟨t, ht.mem, ?_⟩⟩
    rw [← Dict.get?_isSome_iff, hv]; rfl) hex
  refine ⟨⟨.sp s, D.keys, C⟩, ?_, ⟨h3, h4, hnd, hcnd, ?_⟩, keys_toks toks, fun c => ?_, ?_⟩
  · unfold nodesToMatrix
    change (do let s ← dictToSp D D.keys C; mkMtx (.sp s) D.keys C) = _
    simp only [h1, bind, Except.bind]
    exact mkMtx_sp h3 h4
  · intro s' hs'; cases hs'; exact h5
  · rw [hmemc]
    simp only [mem_tokRow_keys]
  · intro t ht c
    have hst : storedEntry (⟨.sp s, D.keys, C⟩ : Mtx κ Int) t.name c = (tokRow t).get? c := by
      obtain ⟨i, hi⟩ := List.mem_iff_getElem?.1 ((keys_toks toks t.name).2 ⟨t, ht.mem, rfl⟩ : t.name ∈ D.keys)
      by_cases hc : c ∈ C
      · obtain ⟨j, hj⟩ := List.mem_iff_getElem?.1 hc
        rw [storedEntry_of (m := ⟨.sp s, D.keys, C⟩) hnd hcnd rfl hi hj, h6 i j _ _ hi hj, hat t ht]
      · have e1 : (tokRow t).get? c = none := by
          rw [Dict.get?_eq_none_iff]; intro hm; exact hc ((hmemc c).2 ⟨t, ht.mem, hm⟩)
        rw [e1]
        unfold storedEntry
        simp only [idxOf?_none hc]
        cases List.idxOf? t.name D.keys <;> rfl
    rw [hst]
    exact tokRow_spec t c

/-- If the last tokens of all names are without contexts, `ValueError`, though other tokens may have some. -/
theorem C211_error {toks : List (Tok κ)} (order : List κ → List κ) (h : ∀ t, IsLast toks t → t.left = [] ∧ t.right = []) :
    nodesToMatrix toks order = .error .valueError := by
  unfold nodesToMatrix
  simp only
  rw [C21_empty (d := Dict.ofPairs (toks.map (fun t => (t.name, tokRow t))))]
  · rfl
  · refine ⟨Dict.WF_ofPairs _, ?_⟩
    intro p hp
    obtain ⟨t, -, -, h⟩ := (get?_toks toks p.1 p.2).1 (Dict.get?_of_mem (Dict.WF_ofPairs _) hp)
    rw [← h]
    exact WF_tokRow t
  · intro r c
    unfold at2
    cases hr : Dict.get? (Dict.ofPairs (toks.map (fun t => (t.name, tokRow t)))) r with
    | none => rfl
    | some row =>
      obtain ⟨t, ht, -, rfl⟩ := (get?_toks toks r row).1 hr
      obtain ⟨e1, e2⟩ := h t ht
      simp [tokRow, e1, e2, Dict.ofPairs, Dict.update]

/-- **C211 (partial)**, retrieval: the matrix has a row for every identifier, and it is right for one of its occurrences. -/
theorem C211_partial {f : Formatter ℓ μ κ} {L R : Nat} (hR : R ≠ 0) {colv : Vocab κ} {qs : List κ} (hq : qs.Nodup)
    {files : List (φ × List ℓ)} {s : State (φ × List ℓ) (Bool × Toks φ μ κ) (TokRes (Toks φ μ κ))}
    (h : RetrieveRun f L R colv qs files s) (name : φ → μ → Nat → κ) {order : List κ → List κ} (horder : ∀ l, (order l).Perm l) :
    retrieve f name order files.length s = some (.error .valueError) ∨
    ∃ m, retrieve f name order files.length s = some (.ok m) ∧ Valid m ∧ (∀ n, n ∈ m.rows ↔ n ∈ occNames f name qs files) ∧
      ∀ n ∈ m.rows, ∃ F xs i x, IsOcc f qs files F xs i x ∧ name F.1 x.1 x.2 = n ∧ ∀ c,
        (storedEntry m n c = none ↔ ∀ d, ¬ KeptAt (keepOf (handlerVocab colv)) L R (collocsOf f xs) i c d) ∧
        ∀ d, storedEntry m n c = some d →
          KeptAt (keepOf (handlerVocab colv)) L R (collocsOf f xs) i c d ∧
          ∀ d', KeptAt (keepOf (handlerVocab colv)) L R (collocsOf f xs) i c d' → d' ≤ d := by
  obtain ⟨toks, h1, h2⟩ := retrieved hR hq h name order
  by_cases hne : ∃ t, IsLast toks t ∧ (t.left ≠ [] ∨ t.right ≠ [])
  · right
    obtain ⟨m, e1, e2, e3, -, e5⟩ := C211_exact horder hne
    refine ⟨m, by rw [h1, e1], e2, fun n => ?_, fun n hn => ?_⟩
    · rw [e3, ← (retrieved_names hq files name h2).mem_iff, List.mem_map]
    · obtain ⟨t, ht, rfl⟩ := (e3 n).1 hn
      obtain ⟨u, hu, hun⟩ := exists_last ht
      obtain ⟨F, hF, h3⟩ := List.mem_flatMap.1 (h2.mem_iff.1 hu.mem)
      obtain ⟨k, hk, h4⟩ := List.mem_flatMap.1 h3
      obtain ⟨xs, hxs, i, x, hx, rfl, hux⟩ := mem_found.1 h4
      subst hux
      have hi : i < (collocsOf f xs).length := by
        have := lt_length_of_getElem? hx
        simpa [collocsOf] using this
      refine ⟨F, xs, i, x, ⟨hF, hxs, hx, hk⟩, hun, fun c => ?_⟩
      have hiff := fun d => occursAt_iff (keepOf (handlerVocab colv)) L R (collocsOf f xs) i hi (name F.1 x.1 x.2) c d
      obtain ⟨g1, g2⟩ := e5 _ hu c
      rw [hun] at g1 g2
      refine ⟨g1.trans (forall_congr' (fun d => not_congr (hiff d))), fun d hd => ?_⟩
      obtain ⟨q1, q2⟩ := g2 d hd
      exact ⟨(hiff d).1 q1, fun d' hd' => q2 d' ((hiff d').2 hd')⟩
  · left
    rw [h1, C211_error order (fun t ht => ?_)]
    by_contra hc
    exact hne ⟨t, ht, not_and_or.1 hc⟩

/-! ### Two files with one identifier, two workers -/

/-- The second worker is the first to put its tokens. -/
def twoRunLate : List Action :=
  [.produce, .produce, .take 0, .take 1, .work 0, .work 1, .produce, .produce, .take 0, .take 1, .work 1, .work 0]

/-- Identifiers without the file, as for `a.txt` and `a.xml`. -/
def sameName (_ m lid : Nat) : Nat := 10 * lid + m

def ended (a b : TokRes (Toks Nat Nat Nat)) : State (Nat × List Nat) (Bool × Toks Nat Nat Nat) (TokRes (Toks Nat Nat Nat)) :=
  ⟨[], [], [.done (false, [(1, [tokIn 1 2])]), .done (false, [(1, [tokIn 2 3])])], [a, b]⟩

theorem two_run (as : List Action) (a b : TokRes (Toks Nat Nat Nat)) (hc : CrashFree as)
    (he : exec (retrieveProg fmt 1 1 Vocab.empty [1]) as (start (retrieveProg fmt 1 1 Vocab.empty [1]) 2 call1) = some (ended a b))
    (hr : received (retrieveProg fmt 1 1 Vocab.empty [1]) 0 as (start (retrieveProg fmt 1 1 Vocab.empty [1]) 2 call1) = [(1, [1, 2])])
    (hr' : received (retrieveProg fmt 1 1 Vocab.empty [1]) 1 as (start (retrieveProg fmt 1 1 Vocab.empty [1]) 2 call1) = [(2, [1, 3])]) :
    RetrieveRun fmt 1 1 Vocab.empty [1] call1 (ended a b) := by
  refine ⟨2, as, hc, he, ⟨rfl, ?_⟩, rfl, ?_⟩
  · intro w hw
    simp only [ended, List.mem_cons, List.not_mem_nil, or_false] at hw
    rcases hw with rfl | rfl <;> exact Or.inl ⟨_, rfl⟩
  · intro i hi
    have : i = 0 ∨ i = 1 := by omega
    rcases this with rfl | rfl
    · rw [hr]; simp
    · rw [hr']; simp

/-- **C211** is false: two occurrences in files with one identifier have one row; the contexts of the other occurrence are lost, and
which one that is depends on the worker that ends first. -/
theorem C211_false : ∃ s s', RetrieveRun fmt 1 1 Vocab.empty [1] call1 s ∧ RetrieveRun fmt 1 1 Vocab.empty [1] call1 s' ∧
    ∃ m m', retrieve fmt sameName id 2 s = some (.ok m) ∧ retrieve fmt sameName id 2 s' = some (.ok m') ∧
      m.rows = [11] ∧ m'.rows = [11] ∧ storedEntry m 11 2 = none ∧ storedEntry m 11 3 = some 1 ∧
      storedEntry m' 11 2 = some 1 ∧ storedEntry m' 11 3 = none := by
  refine ⟨_, _, two_run twoRun (.toks [(1, [tokIn 1 2])]) (.toks [(1, [tokIn 2 3])]) (by intro i; simp [twoRun]) rfl rfl rfl,
    two_run twoRunLate (.toks [(1, [tokIn 2 3])]) (.toks [(1, [tokIn 1 2])]) (by intro i; simp [twoRunLate]) rfl rfl rfl,
    ⟨.sp ⟨.csr, 1, 2, [((0, 1), 1)]⟩, [11], [2, 3]⟩, ⟨.sp ⟨.csr, 1, 2, [((0, 1), 1)]⟩, [11], [3, 2]⟩, rfl, rfl, rfl, rfl, ?_, ?_, ?_, ?_⟩
  all_goals decide +kernel

/-- Without the last token there are other contexts; the hypotheses of `C211_exact` and `C211_error` are met by such lists. -/
example : (∃ t, IsLast ([⟨1, [5], []⟩, ⟨1, [], [6, 5]⟩, ⟨2, [], []⟩] : List (Tok Nat)) t ∧ (t.left ≠ [] ∨ t.right ≠ [])) ∧
    ∀ t, IsLast ([⟨1, [5], []⟩, ⟨1, [], []⟩] : List (Tok Nat)) t → t.left = [] ∧ t.right = [] := by
  refine ⟨⟨⟨1, [], [6, 5]⟩, ⟨[⟨1, [5], []⟩], [⟨2, [], []⟩], rfl, by simp⟩, Or.inr (by simp)⟩, fun t ht => ?_⟩
  rcases (isLast_snoc (toks := [⟨1, [5], []⟩])).1 ht with rfl | ⟨h, hn⟩
  · exact ⟨rfl, rfl⟩
  · have := h.mem
    simp only [List.mem_singleton] at this
    subst this
    exact absurd rfl hn

end Verif.Flow
