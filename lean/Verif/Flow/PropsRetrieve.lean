import Verif.Flow.RetrieveLemmas

/-!
# Properties of token retrieval end to end: C111, C112
-/

set_option linter.unusedSectionVars false

namespace Verif.Flow
open Verif.Py Verif.Vocab Verif.Corpus Verif.Window Verif.Engine Verif.Matrix

variable {ℓ μ κ φ : Type} [LinearOrder κ]

/-- The names of all occurrences of the queries in the files. -/
def occNames (f : Formatter ℓ μ κ) (name : φ → μ → Nat → κ) (qs : List κ) (files : List (φ × List ℓ)) : List κ :=
  files.flatMap (fun F => ((segments f F.2).flatten.filter (fun x => decide (f.getType x.1 ∈ qs))).map
    (fun x => name F.1 x.1 x.2))

/-- An occurrence of a query: position `i` of the segment `xs` of the file `F`. -/
structure IsOcc (f : Formatter ℓ μ κ) (qs : List κ) (files : List (φ × List ℓ)) (F : φ × List ℓ) (xs : List (μ × Nat))
    (i : Nat) (x : μ × Nat) : Prop where
  file : F ∈ files
  seg : xs ∈ segments f F.2
  pos : xs[i]? = some x
  query : f.getType x.1 ∈ qs

/-- The collocates of a segment. -/
def collocsOf (f : Formatter ℓ μ κ) (xs : List (μ × Nat)) : List κ := xs.map (fun x => f.getColloc x.1)

/-- A complete run of the workers in which no worker dies and each gets a file. -/
structure RetrieveRun (f : Formatter ℓ μ κ) (L R : Nat) (colv : Vocab κ) (qs : List κ) (files : List (φ × List ℓ))
    (s : State (φ × List ℓ) (Bool × Toks φ μ κ) (TokRes (Toks φ μ κ))) : Prop where
  intro ::
  run : ∃ (W : Nat) (as : List Action), CrashFree as ∧
    exec (retrieveProg f L R colv qs) as (start (retrieveProg f L R colv qs) W files) = some s ∧ Joined s ∧ s.queue = [] ∧
    ∀ i < W, received (retrieveProg f L R colv qs) i as (start (retrieveProg f L R colv qs) W files) ≠ []

/-- All tokens that are retrieved, in some order. -/
theorem retrieved {f : Formatter ℓ μ κ} {L R : Nat} (hR : R ≠ 0) {colv : Vocab κ} {qs : List κ} (hq : qs.Nodup)
    {files : List (φ × List ℓ)} {s : State (φ × List ℓ) (Bool × Toks φ μ κ) (TokRes (Toks φ μ κ))}
    (h : RetrieveRun f L R colv qs files s) (name : φ → μ → Nat → κ) (order : List κ → List κ) :
    ∃ toks : List (Tok κ), retrieve f name order files.length s = some (nodesToMatrix toks order) ∧
      toks.Perm (files.flatMap (fun F => qs.flatMap (fun k =>
        (found f L R (handlerVocab colv) F k).map (asTok f name)))) := by
  obtain ⟨W, as, hc, he, hj, hqueue, hrec⟩ := h.run
  have hsim := retrieve_sim (φ := φ) f L R hR colv hq
  obtain ⟨s0, h1, rfl⟩ := run_of_sim hsim he
  have hrec' : ∀ i < W, received (tokProg (found (φ := φ) f L R (handlerVocab colv))) i as
      (start (tokProg (found f L R (handlerVocab colv))) W files) ≠ [] := by
    intro i hi
    have := hrec i hi
    rw [start_map hsim, received_map hsim] at this
    exact this
  obtain ⟨rs, h2, h3⟩ := (C05_tokens_partial _ W files as s0 hc h1 (joined_map _ _ _ hj) hqueue).2 hrec'
  refine ⟨_, by unfold retrieve; rw [readN_map, h2]; rfl, ?_⟩
  rw [mergeRes_flatMap hq]
  refine List.Perm.trans ?_ (flatMap_swap qs files _)
  refine List.Perm.flatMap_left _ (fun k _ => ?_)
  rw [← List.map_flatMap]
  exact (h3 k).map _

/-- The token of an occurrence. -/
def occTok (f : Formatter ℓ μ κ) (name : φ → μ → Nat → κ) (keep : κ → Bool) (L R : Nat) (F : φ × List ℓ)
    (xs : List (μ × Nat)) (i : Nat) (x : μ × Nat) : Tok κ :=
  ⟨name F.1 x.1 x.2, (((collocsOf f xs).take i).drop (i - L)).filter keep, (((collocsOf f xs).drop (i + 1)).take R).filter keep⟩

theorem mem_found {f : Formatter ℓ μ κ} {L R : Nat} {colv : Option (Vocab κ)} {F : φ × List ℓ} {k : κ}
    {name : φ → μ → Nat → κ} {t : Tok κ} :
    t ∈ (found f L R colv F k).map (asTok f name) ↔
      ∃ xs ∈ segments f F.2, ∃ (i : Nat) (x : μ × Nat), xs[i]? = some x ∧ f.getType x.1 = k ∧
        t = occTok f name (keepOf colv) L R F xs i x := by
  have key : ∀ (xs : List (μ × Nat)) (i : Nat) (x : μ × Nat),
      asTok f name ({ m := (tag F.1 x).1, lid := (tag F.1 x).2
                      left := (((xs.map (tag F.1)).take i).drop (i - L)).filter (fun y => keepOf colv ((tagged f F.1).getColloc y.1))
                      right := (((xs.map (tag F.1)).drop (i + 1)).take R).filter (fun y => keepOf colv ((tagged f F.1).getColloc y.1)) }
          : Token (φ × μ)) = occTok f name (keepOf colv) L R F xs i x := by
    intro xs i x
    unfold asTok occTok collocsOf
    simp only [Tok.mk.injEq]
    refine ⟨rfl, ?_, ?_⟩
    · rw [← List.map_take, ← List.map_drop, ← List.map_take, ← List.map_drop, List.filter_map, List.filter_map, List.map_map]
      rfl
    · rw [← List.map_drop, ← List.map_take, ← List.map_drop, ← List.map_take, List.filter_map, List.filter_map, List.map_map]
      rfl
  unfold found
  rw [segments_tagged, List.mem_map]
  constructor
  · rintro ⟨tok, h, rfl⟩
    obtain ⟨ys, hys, h⟩ := List.mem_flatMap.1 h
    obtain ⟨xs, hxs, rfl⟩ := List.mem_map.1 hys
    unfold tokensOf at h
    obtain ⟨⟨y, i⟩, hp, h⟩ := List.mem_filterMap.1 h
    rw [List.mem_zipIdx_iff_getElem?] at hp
    simp only [List.getElem?_map, Option.map_eq_some_iff] at hp
    obtain ⟨x, hx, rfl⟩ := hp
    by_cases ht : (tagged f F.1).getType (tag F.1 x).1 = k
    · rw [if_pos ht, Option.some.injEq] at h
      refine ⟨xs, hxs, i, x, hx, ht, ?_⟩
      rw [← h]
      exact key xs i x
    · rw [if_neg ht] at h; cases h
  · rintro ⟨xs, hxs, i, x, hx, ht, rfl⟩
    refine ⟨_, List.mem_flatMap.2 ⟨xs.map (tag F.1), List.mem_map.2 ⟨xs, hxs, rfl⟩, ?_⟩, key xs i x⟩
    unfold tokensOf
    refine List.mem_filterMap.2 ⟨(tag F.1 x, i), ?_, ?_⟩
    · rw [List.mem_zipIdx_iff_getElem?]
      simp [List.getElem?_map, hx]
    · exact if_pos ht

theorem found_names (f : Formatter ℓ μ κ) (L R : Nat) (colv : Option (Vocab κ)) (name : φ → μ → Nat → κ) (F : φ × List ℓ)
    (k : κ) : ((found f L R colv F k).map (asTok f name)).map Tok.name =
      ((segments f F.2).flatten.filter (fun x => decide (f.getType x.1 = k))).map (fun x => name F.1 x.1 x.2) := by
  have h := C11_token_count (tagged f F.1) L R colv F.2 k
  have e : ((found f L R colv F k).map (asTok f name)).map Tok.name =
      ((found f L R colv F k).map (fun tok => (tok.m, tok.lid))).map (fun y => name y.1.1 y.1.2 y.2) := by
    rw [List.map_map, List.map_map]; rfl
  rw [e]
  unfold found
  rw [h, segments_tagged, ← List.map_flatten, List.filter_map, List.map_map]
  rfl

theorem retrieved_names {f : Formatter ℓ μ κ} {L R : Nat} {colv : Option (Vocab κ)} {qs : List κ} (hq : qs.Nodup)
    (files : List (φ × List ℓ)) (name : φ → μ → Nat → κ) {toks : List (Tok κ)}
    (h : toks.Perm (files.flatMap (fun F => qs.flatMap (fun k => (found f L R colv F k).map (asTok f name))))) :
    (toks.map Tok.name).Perm (occNames f name qs files) := by
  refine (h.map _).trans ?_
  rw [List.map_flatMap]
  unfold occNames
  refine List.Perm.flatMap_left _ (fun F _ => ?_)
  rw [List.map_flatMap]
  have e : (fun k => ((found f L R colv F k).map (asTok f name)).map Tok.name) =
      fun k => ((segments f F.2).flatten.filter (fun x => decide (f.getType x.1 = k))).map (fun x => name F.1 x.1 x.2) :=
    funext (fun k => found_names f L R colv name F k)
  rw [e, ← List.map_flatMap]
  exact (filter_flatMap hq (fun x : μ × Nat => f.getType x.1) _).map _

theorem keep_handler (colv : Vocab κ) (c : κ) :
    keepOf (handlerVocab colv) c = true ↔ colv.freq = [] ∨ c ∈ colv.freq.keys := by
  unfold handlerVocab keepOf
  by_cases h : Vocab.len colv = 0
  · rw [if_pos h]
    simp only [true_iff]
    left
    simpa [Vocab.len, Dict.keys] using h
  · rw [if_neg h]
    have hne : colv.freq ≠ [] := fun h0 => h (by simp [Vocab.len, h0])
    simp only [hne, false_or]
    exact Dict.contains_iff _ _

/-- **What retrieval computes**, for all files and schedules: one row per occurrence of a query; the entry of an
occurrence and a collocate is absent if the collocate is not kept within the spans, and otherwise it is the greatest of
the signed ranks of its occurrences among the kept collocates. -/
theorem C112_exact {f : Formatter ℓ μ κ} {L R : Nat} (hR : R ≠ 0) {colv : Vocab κ} {qs : List κ} (hq : qs.Nodup)
    {files : List (φ × List ℓ)} {s : State (φ × List ℓ) (Bool × Toks φ μ κ) (TokRes (Toks φ μ κ))}
    (h : RetrieveRun f L R colv qs files s) {name : φ → μ → Nat → κ} (hname : (occNames f name qs files).Nodup)
    {order : List κ → List κ} (horder : ∀ l, (order l).Perm l)
    (hctx : ∃ F xs i x c d, IsOcc f qs files F xs i x ∧ KeptAt (keepOf (handlerVocab colv)) L R (collocsOf f xs) i c d) :
    ∃ m, retrieve f name order files.length s = some (.ok m) ∧ Valid m ∧ m.rows.Perm (occNames f name qs files) ∧
      ∀ F xs i x, IsOcc f qs files F xs i x → ∀ c,
        (storedEntry m (name F.1 x.1 x.2) c = none ↔
          ∀ d, ¬ KeptAt (keepOf (handlerVocab colv)) L R (collocsOf f xs) i c d) ∧
        ∀ d, storedEntry m (name F.1 x.1 x.2) c = some d →
          KeptAt (keepOf (handlerVocab colv)) L R (collocsOf f xs) i c d ∧
          ∀ d', KeptAt (keepOf (handlerVocab colv)) L R (collocsOf f xs) i c d' → d' ≤ d := by
  obtain ⟨toks, h1, h2⟩ := retrieved hR hq h name order
  have hn := retrieved_names hq files name h2
  have hmem : ∀ F xs i x, IsOcc f qs files F xs i x → occTok f name (keepOf (handlerVocab colv)) L R F xs i x ∈ toks := by
    intro F xs i x ho
    refine h2.mem_iff.2 (List.mem_flatMap.2 ⟨F, ho.file, List.mem_flatMap.2 ⟨f.getType x.1, ho.query, ?_⟩⟩)
    exact mem_found.2 ⟨xs, ho.seg, i, x, ho.pos, rfl, rfl⟩
  have hlen : ∀ F xs i x, IsOcc f qs files F xs i x → i < (collocsOf f xs).length := by
    intro F xs i x ho
    have := lt_length_of_getElem? ho.pos
    simpa [collocsOf] using this
  obtain ⟨F, xs, i, x, c, d, ho, hk⟩ := hctx
  have hne : ∃ t ∈ toks, t.left ≠ [] ∨ t.right ≠ [] := by
    refine ⟨_, hmem F xs i x ho, ?_⟩
    have := (occursAt_iff (keepOf (handlerVocab colv)) L R (collocsOf f xs) i (hlen _ _ _ _ ho) (name F.1 x.1 x.2) c d).2 hk
    rcases this with ⟨k, hk, _⟩ | ⟨k, hk, _⟩
    · exact Or.inl (List.ne_nil_of_mem (List.mem_iff_getElem?.2 ⟨k, hk⟩))
    · exact Or.inr (List.ne_nil_of_mem (List.mem_iff_getElem?.2 ⟨k, hk⟩))
  obtain ⟨m, e1, e2, e3, e4⟩ := C27_positions_partial (hn.nodup_iff.2 hname) horder hne
  refine ⟨m, by rw [h1, e1], e2, by rw [e3]; exact hn, ?_⟩
  intro F xs i x ho c
  have hiff := fun d => occursAt_iff (keepOf (handlerVocab colv)) L R (collocsOf f xs) i (hlen _ _ _ _ ho) (name F.1 x.1 x.2) c d
  obtain ⟨g1, g2⟩ := e4 _ (hmem F xs i x ho) c
  refine ⟨g1.trans (forall_congr' (fun d => not_congr (hiff d))), fun d hd => ?_⟩
  obtain ⟨q1, q2⟩ := g2 d hd
  exact ⟨(hiff d).1 q1, fun d' hd' => q2 d' ((hiff d').2 hd')⟩

/-! ## C111: retrieval -/

/-- **C111 (partial).** Without a column vocabulary (or with one that holds every collocate near an occurrence): one
row per occurrence of a query, and the entries are the signed distances; if a collocate occurs more than once, the
greatest (not the nearest: `C27_false_nearest`).  Not covered: workers that get no file (`C05_false`), right span 0
(`C11_false`), occurrences with equal names. -/
theorem C111_retrieve_partial {f : Formatter ℓ μ κ} {L R : Nat} (hR : R ≠ 0) {colv : Vocab κ} {qs : List κ} (hq : qs.Nodup)
    {files : List (φ × List ℓ)} {s : State (φ × List ℓ) (Bool × Toks φ μ κ) (TokRes (Toks φ μ κ))}
    (h : RetrieveRun f L R colv qs files s) {name : φ → μ → Nat → κ} (hname : (occNames f name qs files).Nodup)
    {order : List κ → List κ} (horder : ∀ l, (order l).Perm l)
    (hcol : colv.freq = [] ∨ ∀ F xs i x c d, IsOcc f qs files F xs i x → InWindow L R (collocsOf f xs) i c d → c ∈ colv.freq.keys)
    (hctx : ∃ F xs i x c d, IsOcc f qs files F xs i x ∧ InWindow L R (collocsOf f xs) i c d) :
    ∃ m, retrieve f name order files.length s = some (.ok m) ∧ Valid m ∧ m.rows.Perm (occNames f name qs files) ∧
      ∀ F xs i x, IsOcc f qs files F xs i x → ∀ c,
        (storedEntry m (name F.1 x.1 x.2) c = none ↔ ∀ d, ¬ InWindow L R (collocsOf f xs) i c d) ∧
        ∀ d, storedEntry m (name F.1 x.1 x.2) c = some d →
          InWindow L R (collocsOf f xs) i c d ∧ ∀ d', InWindow L R (collocsOf f xs) i c d' → d' ≤ d := by
  have hiff : ∀ F xs i x, IsOcc f qs files F xs i x → ∀ c d,
      KeptAt (keepOf (handlerVocab colv)) L R (collocsOf f xs) i c d ↔ InWindow L R (collocsOf f xs) i c d := by
    intro F xs i x ho
    refine keptAt_iff_inWindow ?_ (fun c d hw => (keep_handler colv c).2 ?_)
    · have := lt_length_of_getElem? ho.pos
      simpa [collocsOf] using this
    · exact hcol.imp id (fun hh => hh F xs i x c d ho hw)
  obtain ⟨F, xs, i, x, c, d, ho, hw⟩ := hctx
  obtain ⟨m, e1, e2, e3, e4⟩ := C112_exact hR hq h hname horder ⟨F, xs, i, x, c, d, ho, (hiff F xs i x ho c d).2 hw⟩
  refine ⟨m, e1, e2, e3, fun F xs i x ho c => ?_⟩
  obtain ⟨g1, g2⟩ := e4 F xs i x ho c
  refine ⟨g1.trans (forall_congr' (fun d => not_congr (hiff F xs i x ho c d))), fun d hd => ?_⟩
  obtain ⟨q1, q2⟩ := g2 d hd
  exact ⟨(hiff F xs i x ho c d).1 q1, fun d' hd' => q2 d' ((hiff F xs i x ho c d').2 hd')⟩

/-- If nothing is kept near any occurrence, or there is none, `retrieve_tokens` raises. -/
theorem C111_nothing {f : Formatter ℓ μ κ} {L R : Nat} (hR : R ≠ 0) {colv : Vocab κ} {qs : List κ} (hq : qs.Nodup)
    {files : List (φ × List ℓ)} {s : State (φ × List ℓ) (Bool × Toks φ μ κ) (TokRes (Toks φ μ κ))}
    (h : RetrieveRun f L R colv qs files s) (name : φ → μ → Nat → κ) (order : List κ → List κ)
    (hctx : ∀ F xs i x c d, IsOcc f qs files F xs i x → ¬ KeptAt (keepOf (handlerVocab colv)) L R (collocsOf f xs) i c d) :
    retrieve f name order files.length s = some (.error .valueError) := by
  obtain ⟨toks, h1, h2⟩ := retrieved hR hq h name order
  have hrow : ∀ t ∈ toks, tokRow t = [] := by
    intro t ht
    obtain ⟨F, hF, h3⟩ := List.mem_flatMap.1 (h2.mem_iff.1 ht)
    obtain ⟨k, hk, h4⟩ := List.mem_flatMap.1 h3
    obtain ⟨xs, hxs, i, x, hx, rfl, rfl⟩ := mem_found.1 h4
    have hi : i < (collocsOf f xs).length := by
      have := lt_length_of_getElem? hx
      simpa [collocsOf] using this
    cases hr : tokRow (occTok f name (keepOf (handlerVocab colv)) L R F xs i x) with
    | nil => rfl
    | cons p d =>
      exfalso
      have hg : (tokRow (occTok f name (keepOf (handlerVocab colv)) L R F xs i x)).get? p.1 = some p.2 := by
        rw [hr, Dict.get?_cons, if_pos rfl]
      have := ((tokRow_spec _ p.1).2 p.2 hg).1
      exact hctx F xs i x p.1 p.2 ⟨hF, hxs, hx, hk⟩
        ((occursAt_iff _ L R (collocsOf f xs) i hi (name F.1 x.1 x.2) p.1 p.2).1 this)
  rw [h1]
  congr 1
  have hent : dictEntries (Dict.ofPairs (toks.map (fun t => (t.name, tokRow t)))) = [] := by
    have hv : ∀ (ps : List (κ × Dict κ Int)), (∀ p ∈ ps, p.2 = []) → ∀ (acc : Dict κ (Dict κ Int)), (∀ p ∈ acc, p.2 = []) →
        ∀ p ∈ ps.foldl (fun d e => Dict.set d e.1 e.2) acc, p.2 = [] := by
      intro ps
      induction ps with
      | nil => intro _ acc ha; exact ha
      | cons q ps ih =>
        intro hps acc ha
        rw [List.foldl_cons]
        refine ih (fun p hp => hps p (by simp [hp])) _ ?_
        intro p hp
        have : ∀ (acc : Dict κ (Dict κ Int)), (∀ p ∈ acc, p.2 = []) → ∀ p ∈ Dict.set acc q.1 q.2, p.2 = [] := by
          intro acc
          induction acc with
          | nil =>
            intro _ p hp
            simp only [Dict.set, List.mem_singleton] at hp
            rw [hp]; exact hps q (by simp)
          | cons a acc ih2 =>
            intro ha p hp
            obtain ⟨a1, a2⟩ := a
            simp only [Dict.set] at hp
            split at hp
            · rcases List.mem_cons.1 hp with rfl | hp
              · exact hps q (by simp)
              · exact ha p (by simp [hp])
            · rcases List.mem_cons.1 hp with rfl | hp
              · exact ha _ (by simp)
              · exact ih2 (fun p hp => ha p (by simp [hp])) p hp
        exact this acc ha p hp
    have hall := hv (toks.map (fun t => (t.name, tokRow t))) (by
      intro p hp
      obtain ⟨t, ht, rfl⟩ := List.mem_map.1 hp
      exact hrow t ht) [] (by simp)
    unfold dictEntries
    rw [List.flatMap_eq_nil_iff]
    intro p hp
    rw [hall p ((sortedBy_perm _ _).mem_iff.1 hp)]; rfl
  unfold nodesToMatrix dictToSp
  simp only [hent]
  rfl

/-! ## C112: retrieval with a column vocabulary -/

/-- **C112 (partial).** With and without a column vocabulary the rows are the same, the same pairs have entries as far
as the collocate is in the vocabulary, and entries have the same sign; but with the vocabulary they may be nearer to
zero (`C112_false`). -/
theorem C112_vocabulary_partial {f : Formatter ℓ μ κ} {L R : Nat} (hR : R ≠ 0) {colv colv0 : Vocab κ} {qs : List κ}
    (hq : qs.Nodup) (hv0 : colv0.freq = []) (hv : colv.freq ≠ []) {files : List (φ × List ℓ)}
    {s s0 : State (φ × List ℓ) (Bool × Toks φ μ κ) (TokRes (Toks φ μ κ))}
    (h : RetrieveRun f L R colv qs files s) (h0 : RetrieveRun f L R colv0 qs files s0)
    {name : φ → μ → Nat → κ} (hname : (occNames f name qs files).Nodup)
    {order : List κ → List κ} (horder : ∀ l, (order l).Perm l)
    (hctx : ∃ F xs i x c d, IsOcc f qs files F xs i x ∧ InWindow L R (collocsOf f xs) i c d ∧ c ∈ colv.freq.keys) :
    ∃ m m0, retrieve f name order files.length s = some (.ok m) ∧ retrieve f name order files.length s0 = some (.ok m0) ∧
      m.rows.Perm m0.rows ∧
      ∀ F xs i x, IsOcc f qs files F xs i x → ∀ c,
        (storedEntry m (name F.1 x.1 x.2) c = none ↔ storedEntry m0 (name F.1 x.1 x.2) c = none ∨ c ∉ colv.freq.keys) ∧
        ∀ d d0, storedEntry m (name F.1 x.1 x.2) c = some d → storedEntry m0 (name F.1 x.1 x.2) c = some d0 →
          (0 < d ∧ d ≤ d0) ∨ (d < 0 ∧ d0 ≤ d) := by
  have hkeep : ∀ c, keepOf (handlerVocab colv) c = true ↔ c ∈ colv.freq.keys := by
    intro c; rw [keep_handler]; simp [hv]
  -- a place within the spans that is kept has a rank between 1 and its distance
  have rank : ∀ (cs : List κ) (i j : Nat) (c : κ), i < cs.length → cs[j]? = some c → c ∈ colv.freq.keys → j ≠ i → i ≤ j + L →
      j ≤ i + R → ∃ d, KeptAt (keepOf (handlerVocab colv)) L R cs i c d ∧
        ((i < j ∧ 0 < d ∧ d ≤ (j : Int) - i) ∨ (j < i ∧ d < 0 ∧ (j : Int) - i ≤ d)) := by
    intro cs i j c hi hj hc hne h1 h2
    have hlt := lt_length_of_getElem? hj
    rcases Nat.lt_or_gt_of_ne hne with hji | hji
    · refine ⟨_, ⟨(hkeep c).2 hc, j, hj, Or.inl ⟨hji, h1, rfl⟩⟩, Or.inr ⟨hji, ?_, ?_⟩⟩
      · have : 0 < ((cs.take i).drop j).countP (keepOf (handlerVocab colv)) := by
          rw [List.countP_pos_iff]
          refine ⟨c, List.mem_iff_getElem?.2 ⟨0, ?_⟩, (hkeep c).2 hc⟩
          rw [List.getElem?_drop, List.getElem?_take, if_pos (by omega)]
          exact hj
        omega
      · have := List.countP_le_length (p := keepOf (handlerVocab colv)) (l := (cs.take i).drop j)
        rw [List.length_drop, List.length_take] at this
        omega
    · refine ⟨_, ⟨(hkeep c).2 hc, j, hj, Or.inr ⟨hji, h2, rfl⟩⟩, Or.inl ⟨hji, ?_, ?_⟩⟩
      · have : 0 < ((cs.take (j + 1)).drop (i + 1)).countP (keepOf (handlerVocab colv)) := by
          rw [List.countP_pos_iff]
          refine ⟨c, List.mem_iff_getElem?.2 ⟨j - (i + 1), ?_⟩, (hkeep c).2 hc⟩
          rw [List.getElem?_drop, List.getElem?_take, if_pos (by omega), show i + 1 + (j - (i + 1)) = j by omega]
          exact hj
        omega
      · have := List.countP_le_length (p := keepOf (handlerVocab colv)) (l := (cs.take (j + 1)).drop (i + 1))
        rw [List.length_drop, List.length_take] at this
        omega
  -- and every rank is that of such a place
  have unrank : ∀ (cs : List κ) (i : Nat) (c : κ) (d : Int), i < cs.length → KeptAt (keepOf (handlerVocab colv)) L R cs i c d →
      c ∈ colv.freq.keys ∧ ∃ d0, InWindow L R cs i c d0 ∧ ((0 < d ∧ d ≤ d0) ∨ (d < 0 ∧ d0 ≤ d)) := by
    rintro cs i c d hi ⟨hk, j, hj, hh⟩
    have hc := (hkeep c).1 hk
    have hlt := lt_length_of_getElem? hj
    refine ⟨hc, (j : Int) - i, ?_, ?_⟩
    · rcases hh with ⟨h5, h6, _⟩ | ⟨h5, h6, _⟩ <;> exact ⟨j, hj, by omega, by omega, by omega, rfl⟩
    · rcases hh with ⟨h5, h6, rfl⟩ | ⟨h5, h6, rfl⟩
      · right
        have h7 : 0 < ((cs.take i).drop j).countP (keepOf (handlerVocab colv)) := by
          rw [List.countP_pos_iff]
          refine ⟨c, List.mem_iff_getElem?.2 ⟨0, ?_⟩, hk⟩
          rw [List.getElem?_drop, List.getElem?_take, if_pos (by omega)]
          exact hj
        have := List.countP_le_length (p := keepOf (handlerVocab colv)) (l := (cs.take i).drop j)
        rw [List.length_drop, List.length_take] at this
        omega
      · left
        have h7 : 0 < ((cs.take (j + 1)).drop (i + 1)).countP (keepOf (handlerVocab colv)) := by
          rw [List.countP_pos_iff]
          refine ⟨c, List.mem_iff_getElem?.2 ⟨j - (i + 1), ?_⟩, hk⟩
          rw [List.getElem?_drop, List.getElem?_take, if_pos (by omega), show i + 1 + (j - (i + 1)) = j by omega]
          exact hj
        have := List.countP_le_length (p := keepOf (handlerVocab colv)) (l := (cs.take (j + 1)).drop (i + 1))
        rw [List.length_drop, List.length_take] at this
        omega
  have hlen : ∀ F xs i x, IsOcc f qs files F xs i x → i < (collocsOf f xs).length := by
    intro F xs i x ho
    have := lt_length_of_getElem? ho.pos
    simpa [collocsOf] using this
  obtain ⟨F, xs, i, x, c, d, ho, hw, hc⟩ := hctx
  have hw' := hw
  obtain ⟨j, hj, hne, h1, h2, rfl⟩ := hw'
  obtain ⟨dk, hdk, _⟩ := rank _ i j c (hlen F xs i x ho) hj hc hne h1 h2
  obtain ⟨m, e1, _, e3, e4⟩ := C112_exact hR hq h hname horder ⟨F, xs, i, x, c, dk, ho, hdk⟩
  obtain ⟨m0, g1, _, g3, g4⟩ := C111_retrieve_partial hR hq h0 hname horder (Or.inl hv0) ⟨F, xs, i, x, c, _, ho, hw⟩
  refine ⟨m, m0, e1, g1, e3.trans g3.symm, ?_⟩
  intro F xs i x ho c
  obtain ⟨a1, a2⟩ := e4 F xs i x ho c
  obtain ⟨b1, b2⟩ := g4 F xs i x ho c
  have hi := hlen F xs i x ho
  refine ⟨?_, ?_⟩
  · rw [a1, b1]
    constructor
    · intro hn
      by_cases hc : c ∈ colv.freq.keys
      · refine Or.inl (fun d hd => ?_)
        obtain ⟨j, hj, hne, h1, h2, rfl⟩ := hd
        obtain ⟨dk, hdk, _⟩ := rank _ i j c hi hj hc hne h1 h2
        exact hn dk hdk
      · exact Or.inr hc
    · intro hn d hd
      obtain ⟨hc, d0, hd0, _⟩ := unrank _ i c d hi hd
      exact hn.elim (fun hn => hn d0 hd0) (fun hn => hn hc)
  · intro d d0 hd hd0
    obtain ⟨k1, k2⟩ := a2 d hd
    obtain ⟨w1, w2⟩ := b2 d0 hd0
    obtain ⟨hc, d1, hd1, hs⟩ := unrank _ i c d hi k1
    have hle := w2 d1 hd1
    obtain ⟨j, hj, hne, h1, h2, rfl⟩ := w1
    obtain ⟨dk, hdk, hs2⟩ := rank _ i j c hi hj hc hne h1 h2
    have := k2 dk hdk
    omega

/-! ### A concrete run: one file with the lines 1, 2, 3, spans (2, 2), query 1 -/

/-- One worker handles the file. -/
def oneRun : List Action := [.produce, .take 0, .work 0, .produce, .take 0, .work 0]

/-- Names of tokens: line number and match. -/
def lineName (_ : Unit) (m lid : Nat) : Nat := 100 * lid + m

/-- The column vocabulary with the collocate 3 only. -/
def vocab3 : Vocab Nat := ⟨[(3, 1)], true, false⟩

/-- What the worker ends with. -/
def endState (t : Token (Unit × Nat)) :
    State (Unit × List Nat) (Bool × Toks Unit Nat Nat) (TokRes (Toks Unit Nat Nat)) :=
  ⟨[], [], [.done (false, [(1, [t])])], [.toks [(1, [t])]]⟩

theorem sample_run (colv : Vocab Nat) (t : Token (Unit × Nat))
    (he : exec (retrieveProg fmt 2 2 colv [1]) oneRun (start (retrieveProg fmt 2 2 colv [1]) 1 [((), [1, 2, 3])]) =
      some (endState t))
    (hr : received (retrieveProg fmt 2 2 colv [1]) 0 oneRun (start (retrieveProg fmt 2 2 colv [1]) 1 [((), [1, 2, 3])]) =
      [((), [1, 2, 3])]) :
    RetrieveRun fmt 2 2 colv [1] [((), [1, 2, 3])] (endState t) := by
  refine ⟨1, oneRun, by intro i; simp [oneRun], he, ⟨rfl, ?_⟩, rfl, ?_⟩
  · intro w hw
    simp only [endState, List.mem_singleton] at hw
    exact Or.inl ⟨_, hw⟩
  · intro i hi
    have : i = 0 := by omega
    subst this
    rw [hr]; simp

def tokAll : Token (Unit × Nat) := ⟨((), 1), 1, [], [(((), 2), 2), (((), 3), 3)]⟩
def tokKept : Token (Unit × Nat) := ⟨((), 1), 1, [], [(((), 3), 3)]⟩

theorem run_all : RetrieveRun fmt 2 2 Vocab.empty [1] [((), [1, 2, 3])] (endState tokAll) :=
  sample_run _ _ rfl rfl

theorem run_kept : RetrieveRun fmt 2 2 vocab3 [1] [((), [1, 2, 3])] (endState tokKept) :=
  sample_run _ _ rfl rfl

/-- **C112 is false**: the collocate 3 stands two places to the right of the token; with a vocabulary that holds 3 and
not 2 its position is recorded as 1. -/
theorem C112_false : ∃ m m0, retrieve fmt lineName id 1 (endState tokKept) = some (.ok m) ∧
    retrieve fmt lineName id 1 (endState tokAll) = some (.ok m0) ∧
    storedEntry m 101 3 = some 1 ∧ storedEntry m0 101 3 = some 2 :=
  ⟨⟨.sp ⟨.csr, 1, 1, [((0, 0), 1)]⟩, [101], [3]⟩, ⟨.sp ⟨.csr, 1, 2, [((0, 0), 1), ((0, 1), 2)]⟩, [101], [2, 3]⟩,
    rfl, rfl, by decide +kernel, by decide +kernel⟩

/-- Non-vacuity of C111 and C112: the other hypotheses hold for these runs. -/
example : (occNames fmt lineName [1] [((), [1, 2, 3])]).Nodup ∧
    (∃ F xs i x c d, IsOcc fmt [1] [((), [1, 2, 3])] F xs i x ∧ InWindow 2 2 (collocsOf fmt xs) i c d ∧
      c ∈ vocab3.freq.keys) := by
  refine ⟨by decide +kernel, ((), [1, 2, 3]), [(1, 1), (2, 2), (3, 3)], 0, (1, 1), 3, 2, ⟨by simp, ?_, rfl, by decide⟩,
    ⟨2, rfl, by omega, by omega, by omega, by norm_num⟩, by decide⟩
  decide +kernel

/-- Non-vacuity of `C111_nothing`: no query occurs. -/
example : ∀ F xs i x c d, IsOcc fmt [7] [((), [1, 2, 3])] F xs i x →
    ¬ KeptAt (keepOf (handlerVocab (Vocab.empty : Vocab Nat))) 2 2 (collocsOf fmt xs) i c d := by
  rintro F xs i x c d ⟨hF, hs, hp, hq⟩
  simp only [List.mem_singleton] at hF
  subst hF
  have hs' : xs ∈ [[(1, 1), (2, 2), (3, 3)]] := by
    have : segments fmt [1, 2, 3] = [[(1, 1), (2, 2), (3, 3)]] := by decide +kernel
    rw [← this]; exact hs
  simp only [List.mem_singleton] at hs'
  subst hs'
  have hx := List.mem_of_getElem? hp
  simp only [List.mem_cons, List.not_mem_nil, or_false] at hx
  rcases hx with rfl | rfl | rfl <;> exact absurd hq (by decide)

end Verif.Flow
