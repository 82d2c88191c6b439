import Verif.Flow.PropsRetrieve
import Verif.Cooc.PropsLaws

/-! # Property theorem C144 (rows of the retrieved tokens and the frequency list) -/

set_option linter.unusedSectionVars false

namespace Verif.Flow
open Verif.Py Verif.Vocab Verif.Corpus Verif.Window Verif.Engine Verif.Matrix Verif.Cooc

variable {ℓ μ κ φ : Type} [LinearOrder κ]

/-- Lines whose type is one of several are counted by type. -/
theorem countP_mem_sum {α : Type} (g : α → κ) {qs : List κ} (hq : qs.Nodup) (l : List α) :
    l.countP (fun x => decide (g x ∈ qs)) = (qs.map (fun q => l.countP (fun x => decide (g x = q)))).sum := by
  induction l with
  | nil => simp
  | cons x l ih =>
    simp only [List.countP_cons, List.sum_map_add]
    rw [ih]
    congr 1
    clear ih
    induction qs with
    | nil => simp
    | cons q qs ih =>
      rw [List.map_cons, List.sum_cons, ← ih hq.of_cons]
      have hn := (List.nodup_cons.1 hq).1
      by_cases h1 : g x = q
      · subst h1; simp [hn]
      · by_cases h2 : g x ∈ qs <;> simp [h1, h2]

theorem occNames_length (f : Formatter ℓ μ κ) (name : φ → μ → Nat → κ) {qs : List κ} (hq : qs.Nodup) (files : List (φ × List ℓ)) :
    (occNames f name qs files).length = (qs.map (fun q => ((files.map Prod.snd).map (occurrences f q)).sum)).sum := by
  have one : ∀ file : List ℓ, ((segments f file).flatten.filter (fun x => decide (f.getType x.1 ∈ qs))).length =
      (qs.map (fun q => occurrences f q file)).sum := by
    intro file
    have hocc : ∀ q, occurrences f q file = (segments f file).flatten.countP (fun x => decide (f.getType x.1 = q)) := by
      intro q
      have : (segments f file).flatten.countP (fun x => decide (f.getType x.1 = q)) =
          ((segments f file).flatten.map Prod.fst).countP (fun m => decide (f.getType m = q)) := by
        rw [List.countP_map]; rfl
      rw [this, segments_flatten, List.countP_filterMap]
      unfold occurrences
      apply List.countP_congr
      intro l _
      cases f.matchLine l <;> simp
    rw [← List.countP_eq_length_filter, countP_mem_sum (fun x : μ × Nat => f.getType x.1) hq]
    simp only [hocc]
  induction files with
  | nil => simp [occNames]
  | cons F files ih =>
    unfold occNames at ih ⊢
    rw [List.flatMap_cons, List.length_append, List.length_map, one, ih]
    simp only [List.map_cons, List.sum_cons, List.sum_map_add]

/-- **C144 (partial).**  The matrix of the retrieved tokens has as many rows as the frequencies of the queries, in the frequency
list of the same files, add up to.  Not covered, as for C111: workers that get no file (`C05_false`), right span 0 (`C11_false`),
occurrences with equal names. -/
theorem C144_rows_partial {f : Formatter ℓ μ κ} {L R : Nat} (hR : R ≠ 0) {colv : Vocab κ} {qs : List κ} (hq : qs.Nodup)
    {files : List (φ × List ℓ)} {s : State (φ × List ℓ) (Bool × Toks φ μ κ) (TokRes (Toks φ μ κ))}
    (h : RetrieveRun f L R colv qs files s) {name : φ → μ → Nat → κ} (hname : (occNames f name qs files).Nodup)
    {order : List κ → List κ} (horder : ∀ l, (order l).Perm l)
    (hctx : ∃ F xs i x c d, IsOcc f qs files F xs i x ∧ KeptAt (keepOf (handlerVocab colv)) L R (collocsOf f xs) i c d)
    {v : Vocab κ} (hv : ReturnsFreq f (files.map Prod.snd) v) :
    ∃ m, retrieve f name order files.length s = some (.ok m) ∧
      (m.rows.length : Int) = (qs.map (fun q => (v.freq.get? q).getD 0)).sum := by
  obtain ⟨m, e1, e2, e3, -⟩ := C112_exact hR hq h hname horder hctx
  refine ⟨m, e1, ?_⟩
  obtain ⟨W, as, s', rs, h1, h2, h3, rfl⟩ := hv
  rw [e3.length_eq, occNames_length f name hq]
  have hg : ∀ q, ((mergeFreqs rs).freq.get? q).getD 0 = (((files.map Prod.snd).map (occurrences f q)).sum : Nat) := by
    intro q
    rw [C01_freq_list f W _ as s' rs h1 h2 h3 q]
    simp only
    split
    · rfl
    · simp only [Option.getD_none]; omega
  simp only [hg]
  clear hg e3 hq hname hctx h e1 horder
  induction qs with
  | nil => rfl
  | cons q qs ih => simp only [List.map_cons, List.sum_cons]; push_cast [ih]; rfl

/-- Non-vacuity: for the run of C111 the frequency list says 1 for the query, and there is one row. -/
example : (∃ v, ReturnsFreq fmt [[1, 2, 3]] v ∧ v.freq.get? 1 = some 1) ∧
    ∃ m, retrieve fmt lineName id 1 (endState tokAll) = some (.ok m) ∧ m.rows.length = 1 := by
  refine ⟨⟨_, ⟨1, oneRun, _, _, rfl, ⟨rfl, ?_⟩, rfl, rfl⟩, rfl⟩, _, rfl, rfl⟩
  intro w hw
  exact Or.inl ⟨_, List.mem_singleton.1 hw⟩

/-- **C144 is false** with more workers than files: the result of the worker without a file is read instead of the tokens, and the
call raises `ValueError`, though the query occurs. -/
theorem C144_counterexample : ∃ as s, CrashFree as ∧
    exec (retrieveProg fmt 2 2 Vocab.empty [1]) as (start (retrieveProg fmt 2 2 Vocab.empty [1]) 2 [((), [1, 2, 3])]) = some s ∧
    Joined s ∧ s.queue = [] ∧ retrieve fmt lineName id 1 s = some (.error .valueError) := by
  refine ⟨[.produce, .take 0, .produce, .take 1, .work 1, .produce, .work 0, .take 0, .work 0], _, by intro i; simp, rfl,
    ⟨rfl, ?_⟩, rfl, rfl⟩
  intro w hw
  rcases List.mem_cons.1 hw with h | h
  · exact Or.inl ⟨_, h⟩
  · exact Or.inl ⟨_, List.mem_singleton.1 h⟩

end Verif.Flow
