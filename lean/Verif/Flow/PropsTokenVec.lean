import Verif.Flow.TokenVec
import Verif.Flow.PropsRetrieve

/-!
# Properties of `TokenVectorizer`: C116
-/

set_option linter.unusedSectionVars false

namespace Verif.Flow
open Verif.Py Verif.Vocab Verif.Corpus Verif.Window Verif.Engine Verif.Matrix

variable {ℓ μ κ φ : Type} [LinearOrder κ]

theorem mem_keys_set {α β : Type} [DecidableEq α] (d : Dict α β) (k : α) (v : β) (k' : α) :
    k' ∈ (Dict.set d k v).keys ↔ k' = k ∨ k' ∈ d.keys := by
  rw [← Dict.get?_isSome_iff, ← Dict.get?_isSome_iff, Dict.get?_set]
  by_cases h : k = k'
  · subst h; simp
  · rw [if_neg h]
    exact ⟨Or.inr, fun hh => hh.resolve_left (fun e => h e.symm)⟩

theorem wf_foldl_set (vs : List κ) (d : Dict κ Int) (h : d.WF) : (vs.foldl (fun d v => d.set v 0) d).WF := by
  induction vs generalizing d with
  | nil => exact h
  | cons v vs ih => exact ih _ (Dict.WF_set h v 0)

theorem keys_foldl_set (vs : List κ) (d : Dict κ Int) (k : κ) :
    k ∈ (vs.foldl (fun d v => d.set v 0) d).keys ↔ k ∈ d.keys ∨ k ∈ vs := by
  induction vs generalizing d with
  | nil => simp
  | cons v vs ih => rw [List.foldl_cons, ih, mem_keys_set, List.mem_cons]; tauto

/-- The queries are the variants of the concepts, each once. -/
theorem C116_queries (concepts : Dict κ (List κ)) :
    (queryDict concepts).keys.Nodup ∧ ∀ v, v ∈ (queryDict concepts).keys ↔ ∃ c ∈ concepts, v ∈ c.2 := by
  have key : ∀ (cs : List (κ × List κ)) (d : Dict κ Int), d.WF →
      (cs.foldl (fun d c => c.2.foldl (fun d v => d.set v 0) d) d).WF ∧
      ∀ v, v ∈ (cs.foldl (fun d c => c.2.foldl (fun d v => d.set v 0) d) d).keys ↔ v ∈ d.keys ∨ ∃ c ∈ cs, v ∈ c.2 := by
    intro cs
    induction cs with
    | nil => intro d hd; exact ⟨hd, by simp⟩
    | cons c cs ih =>
      intro d hd
      obtain ⟨h1, h2⟩ := ih _ (wf_foldl_set c.2 d hd)
      refine ⟨h1, fun v => ?_⟩
      rw [List.foldl_cons, h2, keys_foldl_set]
      simp only [List.mem_cons, exists_eq_or_imp]
      tauto
  obtain ⟨h1, h2⟩ := key concepts [] (by simp [Dict.WF, Dict.keys])
  exact ⟨h1, fun v => by rw [queryDict, h2]; simp [Dict.keys]⟩

theorem rowOf_unknown (m : Mtx κ Int) {v : κ} (h : v ∉ m.rows) : rowOf m v = .error .keyError := by
  unfold rowOf
  rw [(get?_idOf_none m.rows v).2 h]

theorem rowOf_known (m : Mtx κ Int) {v : κ} (h : v ∈ m.rows) : ∃ r, rowOf m v = .ok r := by
  unfold rowOf
  obtain ⟨i, hi⟩ := idOf_isSome h
  rw [hi]
  exact ⟨_, rfl⟩

theorem variantRows_ok (m : Mtx κ Int) (vs : List κ) : (variantRows m vs).2 = none ↔ ∀ v ∈ vs, v ∈ m.rows := by
  induction vs with
  | nil => simp [variantRows]
  | cons v vs ih =>
    unfold variantRows
    by_cases h : v ∈ m.rows
    · obtain ⟨r, hr⟩ := rowOf_known m h
      simp only [hr, ih, List.mem_cons, forall_eq_or_imp, h, true_and]
    · simp only [rowOf_unknown m h, List.mem_cons, forall_eq_or_imp, h, false_and, reduceCtorEq]

theorem variantRows_err (m : Mtx κ Int) (vs : List κ) (e : Matrix.Err) (h : (variantRows m vs).2 = some e) : e = .keyError := by
  induction vs with
  | nil => simp [variantRows] at h
  | cons v vs ih =>
    unfold variantRows at h
    by_cases hv : v ∈ m.rows
    · obtain ⟨r, hr⟩ := rowOf_known m hv
      rw [hr] at h
      exact ih h
    · rw [rowOf_unknown m hv] at h
      exact (Option.some.inj h).symm

/-- **What `retrieve_tokens` does**: if the handler gives a matrix, it succeeds iff every variant is the name of a *token*;
otherwise a `KeyError` is raised. -/
theorem C116_exact (concepts : Dict κ (List κ)) (m : Mtx κ Int) :
    ((vecRetrieve concepts (.ok m)).2 = none ↔ ∀ c ∈ concepts, ∀ v ∈ c.2, v ∈ m.rows) ∧
    ∀ e, (vecRetrieve concepts (.ok m)).2 = some e → e = .keyError := by
  unfold vecRetrieve
  simp only
  induction concepts with
  | nil => exact ⟨by simp [fillConcepts], by intro e h; simp [fillConcepts] at h⟩
  | cons c cs ih =>
    unfold fillConcepts
    cases hv : (variantRows m c.2).2 with
    | some e =>
      simp only [reduceCtorEq, false_iff]
      refine ⟨fun h => ?_, fun e' he' => by rw [← Option.some.inj he']; exact variantRows_err m c.2 e hv⟩
      have := (variantRows_ok m c.2).2 (h c (by simp))
      rw [hv] at this; cases this
    | none =>
      simp only
      refine ⟨?_, ih.2⟩
      rw [ih.1]
      have := (variantRows_ok m c.2).1 hv
      simp only [List.mem_cons, forall_eq_or_imp]
      exact ⟨fun h => ⟨this, h⟩, fun h => h.2⟩

/-- The row of a name: the values of that row, in the order of the columns. -/
def IsRow (m : Mtx κ Int) (v : κ) (r : List Int) : Prop :=
  r.length = m.body.nc ∧ ∃ i, m.rows[i]? = some v ∧ ∀ j < m.body.nc, r[j]? = some (m.body.val i j)

theorem rowOf_isRow {m : Mtx κ Int} {v : κ} {r : List Int} (h : rowOf m v = .ok r) : IsRow m v r := by
  unfold rowOf at h
  cases hi : (idOf m.rows).get? v with
  | none => rw [hi] at h; cases h
  | some i =>
    rw [hi] at h
    cases h
    refine ⟨by simp, i, getElem?_of_idOf hi, fun j hj => by simp [hj]⟩

theorem variantRows_rows (m : Mtx κ Int) (vs : List κ) (h : (variantRows m vs).2 = none) :
    List.Forall₂ (IsRow m) vs (variantRows m vs).1 := by
  induction vs with
  | nil => exact .nil
  | cons v vs ih =>
    unfold variantRows at h ⊢
    cases hr : rowOf m v with
    | error e => rw [hr] at h; cases h
    | ok r =>
      rw [hr] at h
      exact .cons (rowOf_isRow hr) (ih h)

/-- What is stored if it succeeds: for every concept, in order, the rows of its variants, in order. -/
theorem C116_rows (concepts : Dict κ (List κ)) (m : Mtx κ Int) (h : (vecRetrieve concepts (.ok m)).2 = none) :
    ∃ d, (vecRetrieve concepts (.ok m)).1 = some d ∧
      List.Forall₂ (fun (c : κ × List κ) (x : κ × List (List Int)) => x.1 = c.1 ∧ List.Forall₂ (IsRow m) c.2 x.2) concepts d := by
  refine ⟨_, rfl, ?_⟩
  simp only [vecRetrieve] at h
  induction concepts with
  | nil => exact .nil
  | cons c cs ih =>
    unfold fillConcepts at h ⊢
    cases hv : (variantRows m c.2).2 with
    | some e => rw [hv] at h; cases h
    | none =>
      rw [hv] at h
      exact .cons ⟨rfl, variantRows_rows m c.2 hv⟩ (ih h)

/-- **C116 is false**: for every corpus, every schedule and all concepts, if no token is named like a variant (tokens
are named by the type and the place), `retrieve_tokens` raises: `ValueError` if no collocate of a variant is found, and
`KeyError` otherwise. -/
theorem C116_false {f : Formatter ℓ μ κ} {L R : Nat} (hR : R ≠ 0) {concepts : Dict κ (List κ)}
    {files : List (φ × List ℓ)} {s : State (φ × List ℓ) (Bool × Toks φ μ κ) (TokRes (Toks φ μ κ))}
    (h : RetrieveRun f L R Vocab.empty (queryDict concepts).keys files s) {name : φ → μ → Nat → κ}
    (hname : (occNames f name (queryDict concepts).keys files).Nodup)
    (hdiff : ∀ c ∈ concepts, ∀ v ∈ c.2, v ∉ occNames f name (queryDict concepts).keys files)
    {order : List κ → List κ} (horder : ∀ l, (order l).Perm l) :
    ∃ r, retrieve f name order files.length s = some r ∧
      ((vecRetrieve concepts r = (none, some .valueError) ∧
          ∀ F xs i x c d, IsOcc f (queryDict concepts).keys files F xs i x → ¬ InWindow L R (collocsOf f xs) i c d) ∨
        ((vecRetrieve concepts r).2 = some .keyError ∧
          ∃ F xs i x c d, IsOcc f (queryDict concepts).keys files F xs i x ∧ InWindow L R (collocsOf f xs) i c d)) := by
  have hq := (C116_queries concepts).1
  by_cases hctx : ∃ F xs i x c d, IsOcc f (queryDict concepts).keys files F xs i x ∧ InWindow L R (collocsOf f xs) i c d
  · obtain ⟨m, h1, _, h3, _⟩ := C111_retrieve_partial hR hq h hname horder (Or.inl rfl) hctx
    refine ⟨_, h1, Or.inr ⟨?_, hctx⟩⟩
    obtain ⟨g1, g2⟩ := C116_exact concepts m
    cases hr : (vecRetrieve concepts (.ok m)).2 with
    | some e => rw [g2 e hr]
    | none =>
      exfalso
      obtain ⟨F, xs, i, x, _, _, ho, _⟩ := hctx
      obtain ⟨c, hc, hv⟩ := ((C116_queries concepts).2 _).1 ho.query
      exact hdiff c hc _ hv (h3.mem_iff.1 (g1.1 hr c hc _ hv))
  · push Not at hctx
    refine ⟨_, C111_nothing hR hq h name order ?_, Or.inl ⟨rfl, hctx⟩⟩
    intro F xs i x c d ho hk
    have hi : i < (collocsOf f xs).length := by
      have := lt_length_of_getElem? ho.pos
      simpa [collocsOf] using this
    refine hctx F xs i x c d ho ((keptAt_iff_inWindow hi ?_ c d).1 hk)
    intro c d _
    exact (keep_handler _ c).2 (Or.inl rfl)

/-- `generate_vectors` fails before and after that: without the attribute, and with the variants that have been stored,
as their names are those of arrays. -/
theorem C116_generate (str : List Int → κ) (freqMTX : Mtx κ Int) (hstr : ∀ l, str l ∉ freqMTX.rows)
    (attr : Option (Dict κ (List (List Int)))) (h : attr ≠ some []) : generateVectors str freqMTX attr = .attributeError := by
  unfold generateVectors
  cases attr with
  | none => rfl
  | some d =>
    cases d with
    | nil => exact absurd rfl h
    | cons c cs =>
      have : submatrix freqMTX (some (c.2.map str)) none = .ok none := by
        unfold submatrix
        have h1 : (request freqMTX.rows (c.2.map str)).1 = [] := by
          rw [request_fst, List.filter_eq_nil_iff]
          intro e he
          obtain ⟨l, _, rfl⟩ := List.mem_map.1 he
          simpa using hstr l
        simp [h1]
      simp only [this]

/-- After a failed `retrieve_tokens` the attribute, if it has been set, is not empty. -/
theorem C116_failed_attr (concepts : Dict κ (List κ)) (r : Except Matrix.Err (Mtx κ Int)) (e : Matrix.Err)
    (h : (vecRetrieve concepts r).2 = some e) : (vecRetrieve concepts r).1 ≠ some [] := by
  cases r with
  | error e' => simp [vecRetrieve]
  | ok m =>
    simp only [vecRetrieve] at h ⊢
    cases concepts with
    | nil => simp [fillConcepts] at h
    | cons c cs =>
      unfold fillConcepts
      split <;> simp

/-- Non-vacuity: the concept 50 with the variant 1 in the file 1 2 3. -/
example : RetrieveRun fmt 2 2 Vocab.empty (queryDict [(50, [1])]).keys [((), [1, 2, 3])] (endState tokAll) ∧
    (∀ c ∈ [((50 : Nat), [1])], ∀ v ∈ c.2, v ∉ occNames fmt lineName (queryDict [(50, [1])]).keys [((), [1, 2, 3])]) ∧
    (occNames fmt lineName (queryDict [(50, [1])]).keys [((), [1, 2, 3])]).Nodup := by
  refine ⟨run_all, ?_, ?_⟩
  · intro c hc v hv
    simp only [List.mem_singleton] at hc
    subst hc
    simp only [List.mem_singleton] at hv
    subst hv
    decide +kernel
  · decide +kernel

/-- Two concepts, of which the second fails: the first is stored. -/
example : vecRetrieve [(50, [101]), (51, [1])] (.ok ⟨.sp ⟨.csr, 1, 1, [((0, 0), 1)]⟩, [101], [3]⟩) =
    (some [((50 : Nat), [[1]]), (51, [])], some .keyError) := by decide +kernel

end Verif.Flow
