import Verif.Flow.TypeToken

/-!
# Properties of `TypeToken`: C113, C114
-/

set_option linter.unusedSectionVars false

namespace Verif.Flow
open Verif.Py Verif.Vocab

variable {X N κ : Type} [LinearOrder κ]

/-- The calls that should build something from the corpus or from the matrices built before. -/
inductive Builds : Call X κ → Prop
  | freqs : Builds .buildFrequencyList
  | vocab : Builds .buildVocab
  | cols (row col) : Builds (.buildColFreq row col)
  | assoc (m) : Builds (.computeAssociation m)
  | tokens (q row) : Builds (.retrieveTokens q row)
  | weights (tc tw) : Builds (.buildTokenWeights tc tw)
  | vectors (w soc) : Builds (.buildTokenVectors w soc)
  | fetch (q) : Builds (.fetchTokens q)

/-- The attributes other than `simmx`, `rankmx` and `type_pairs`. -/
def Kept (s t : TT X N κ) : Prop :=
  t.defaultKey = s.defaultKey ∧ t.vocab = s.vocab ∧ t.freqmx = s.freqmx ∧ t.measmx = s.measmx ∧ t.distmx = s.distmx ∧
    t.tcmx = s.tcmx ∧ t.weights = s.weights ∧ t.vectors = s.vectors ∧ t.typeNodes = s.typeNodes

theorem Kept.refl (s : TT X N κ) : Kept s s := ⟨rfl, rfl, rfl, rfl, rfl, rfl, rfl, rfl, rfl⟩

theorem Kept.trans {s t u : TT X N κ} (h : Kept s t) (h' : Kept t u) : Kept s u := by
  obtain ⟨a0, a1, a2, a3, a4, a5, a6, a7, a8⟩ := h
  obtain ⟨b0, b1, b2, b3, b4, b5, b6, b7, b8⟩ := h'
  exact ⟨b0.trans a0, b1.trans a1, b2.trans a2, b3.trans a3, b4.trans a4, b5.trans a5, b6.trans a6, b7.trans a7, b8.trans a8⟩

theorem rankAfter_kept (lib : Lib X N) (s : TT X N κ) (m : X) (rank : Bool) : Kept s (rankAfter lib s m rank).1 := by
  unfold rankAfter
  split
  · split <;> exact ⟨rfl, rfl, rfl, rfl, rfl, rfl, rfl, rfl, rfl⟩
  · exact Kept.refl s

theorem rankAfter_simmx (lib : Lib X N) (s : TT X N κ) (m : X) (rank : Bool) : (rankAfter lib s m rank).1.simmx = s.simmx := by
  unfold rankAfter
  split
  · split <;> rfl
  · rfl

/-- No call changes these attributes. -/
theorem call_kept (lib : Lib X N) (s : TT X N κ) (c : Call X κ) : Kept s (call lib s c).1 := by
  cases c with
  | computeSimilarity m metric rank axis =>
    simp only [call]
    split
    · split
      · rename_i r _
        have h1 : Kept s { s with simmx := some r } := ⟨rfl, rfl, rfl, rfl, rfl, rfl, rfl, rfl, rfl⟩
        exact h1.trans (rankAfter_kept lib _ r rank)
      · exact Kept.refl s
    · exact Kept.refl s
  | _ =>
    simp only [call]
    repeat' split
    all_goals exact ⟨rfl, rfl, rfl, rfl, rfl, rfl, rfl, rfl, rfl⟩

/-- **No history of calls** changes the vocabulary, the frequencies, the measures, the distances, the tokens, their
weights or vectors, or the type nodes. -/
theorem C113_unchanged (lib : Lib X N) (s : TT X N κ) (cs : List (Call X κ)) : Kept s (calls lib s cs) := by
  induction cs generalizing s with
  | nil => exact Kept.refl s
  | cons c cs ih => exact (call_kept lib s c).trans (ih _)

/-- **C113 is false**: in every state every call that should build something raises and changes nothing. -/
theorem C113_false (lib : Lib X N) (s : TT X N κ) {c : Call X κ} (hc : Builds c) : ∃ e, call lib s c = (s, .error e) := by
  cases hc
  case fetch q =>
    simp only [call]
    split <;> exact ⟨_, rfl⟩
  all_goals exact ⟨_, rfl⟩

/-- Which exceptions these are. -/
theorem C113_errors (lib : Lib X N) (s : TT X N κ) :
    (call lib s .buildVocab).2 = .error .name ∧ (call lib s .buildFrequencyList).2 = .error .name ∧
    (∀ row col, (call lib s (.buildColFreq row col)).2 = .error .name) ∧
    (∀ m, (call lib s (.computeAssociation m)).2 = .error .type) ∧
    (∀ v, Vocab.len v ≠ 0 → (call lib s (.retrieveTokens none (some v))).2 = .error .name) ∧
    (∀ tc tw, (call lib s (.buildTokenWeights tc (some tw))).2 = .error .name) ∧
    (∀ w soc, (call lib s (.buildTokenVectors (some w) (some soc))).2 = .error .name) := by
  refine ⟨rfl, rfl, fun _ _ => rfl, fun _ => rfl, fun v hv => ?_, fun _ _ => rfl, fun _ _ => ?_⟩
  · simp [call, retrieveErr, trueArg, truthy, hv]
  · simp [call]

/-- What does work: if the caller sets the vocabulary, types can be selected from it after any history. -/
theorem C113_select_partial (lib : Lib X N) (s : TT X N κ) (cs : List (Call X κ)) (v : Vocab κ) (hv : Vocab.len v ≠ 0)
    (types : List κ) :
    call lib (calls lib { s with vocab := some v } cs) (.selectTypes (some types)) =
      (calls lib { s with vocab := some v } cs, .ok (.vocab (subvocab v types))) := by
  have h := (C113_unchanged lib { s with vocab := some v } cs).2.1
  simp [call, selectTypes, h, hv, Except.map]

/-- Without that, it is refused after any history. -/
theorem C113_select_refused (lib : Lib X N) (k : Bool) (cs : List (Call X κ)) (types : Option (List κ)) :
    (call lib (calls lib (newTT k) cs) (.selectTypes types)).2 = .error .value := by
  have h : (calls lib (newTT k : TT X N κ) cs).vocab = none := (C113_unchanged lib (newTT k : TT X N κ) cs).2.1
  cases types with
  | none => rfl
  | some l => simp [call, selectTypes, h, Except.map]

/-- An empty vocabulary is refused as well, after any history. -/
theorem C113_select_empty (lib : Lib X N) (s : TT X N κ) (cs : List (Call X κ)) (v : Vocab κ) (hv : Vocab.len v = 0)
    (types : Option (List κ)) :
    (call lib (calls lib { s with vocab := some v } cs) (.selectTypes types)).2 = .error .value := by
  have h := (C113_unchanged lib { s with vocab := some v } cs).2.1
  cases types with
  | none => rfl
  | some l => simp [call, selectTypes, h, hv, Except.map]

/-- Which exception `retrieve_tokens` raises, after any history: both arguments, or none of them, or queries that cannot be
looked up are refused (`ValueError`); whatever is accepted ends with a `NameError`.  Empty arguments count as missing. -/
theorem C113_retrieve (lib : Lib X N) (s : TT X N κ) (cs : List (Call X κ)) (row : Vocab κ) (hrow : Vocab.len row ≠ 0)
    (empty : Vocab κ) (he : Vocab.len empty = 0) (q : List κ) (hq : q ≠ []) :
    (∀ s' : TT X N κ, ∀ qs ∈ [some (some q), some none], (call lib s' (.retrieveTokens qs (some row))).2 = .error .value) ∧
    (∀ s' : TT X N κ, ∀ qs ∈ [none, some (some [])], (call lib s' (.retrieveTokens qs (some row))).2 = .error .name) ∧
    (∀ s' : TT X N κ, ∀ qs ∈ [none, some (some [])], ∀ r ∈ [none, some empty],
      (call lib s' (.retrieveTokens qs r)).2 = .error .value) ∧
    (∀ r ∈ [none, some empty], (call lib (calls lib { s with vocab := some row } cs) (.retrieveTokens (some (some q)) r)).2 = .error .name) ∧
    (∀ r ∈ [none, some empty], ∀ v ∈ [none, some empty],
      (call lib (calls lib { s with vocab := v } cs) (.retrieveTokens (some (some q)) r)).2 = .error .value) := by
  have hq' : q.isEmpty = false := by cases q with
    | nil => exact absurd rfl hq
    | cons _ _ => rfl
  refine ⟨?_, ?_, ?_, ?_, ?_⟩
  · intro s' qs hqs
    simp only [List.mem_cons, List.not_mem_nil, or_false] at hqs
    rcases hqs with rfl | rfl <;> simp [call, retrieveErr, trueArg, truthy, hrow, hq']
  · intro s' qs hqs
    simp only [List.mem_cons, List.not_mem_nil, or_false] at hqs
    rcases hqs with rfl | rfl <;> simp [call, retrieveErr, trueArg, truthy, hrow]
  · intro s' qs hqs r hr
    simp only [List.mem_cons, List.not_mem_nil, or_false] at hqs hr
    rcases hqs with rfl | rfl <;> rcases hr with rfl | rfl <;> simp [call, retrieveErr, trueArg, truthy, he]
  · intro r hr
    have h := (C113_unchanged lib { s with vocab := some row } cs).2.1
    simp only [List.mem_cons, List.not_mem_nil, or_false] at hr
    rcases hr with rfl | rfl <;> simp [call, retrieveErr, trueArg, truthy, he, hq', selectTypes, h, hrow]
  · intro r hr v hv
    have h := (C113_unchanged lib { s with vocab := v } cs).2.1
    simp only [List.mem_cons, List.not_mem_nil, or_false] at hr hv
    rcases hr with rfl | rfl <;> rcases hv with rfl | rfl <;> simp [call, retrieveErr, trueArg, truthy, he, hq', selectTypes, h]

/-- Reading queries needs the settings key that has no default; sampling needs nodes, which no call sets.  With nodes set
by the caller, sampling gives for every type, in order, a sample of its node. -/
theorem C113_queries_samples (lib : Lib X N) (s : TT X N κ) (cs : List (Call X κ)) :
    (∀ isList n, s.defaultKey = false → (call lib (calls lib s cs) (.readQueries isList n)).2 = .error .key) ∧
    (∀ isList n, s.defaultKey = true → isList = true ∨ n = 0 → (call lib (calls lib s cs) (.readQueries isList n)).2 = .ok .none) ∧
    (s.typeNodes = none → (call lib (calls lib s cs) .sampleTokens).2 = .error .attribute) ∧
    ∀ d r, s.typeNodes = some d → (call lib (calls lib s cs) .sampleTokens).2 = .ok (.nodes r) →
      List.Forall₂ (fun (x y : κ × N) => y.1 = x.1 ∧ lib.sample x.2 = .ok y.2) d r := by
  obtain ⟨k1, -, -, -, -, -, -, -, k2⟩ := C113_unchanged lib s cs
  refine ⟨?_, ?_, ?_, ?_⟩
  · intro isList n h
    rw [← k1] at h
    simp [call, h]
  · intro isList n h hl
    rw [← k1] at h
    rcases hl with rfl | rfl
    · simp [call, h]
    · cases isList <;> simp [call, h]
  · intro h
    rw [← k2] at h
    simp [call, h]
  · intro d r h hr
    rw [← k2] at h
    simp only [call, h] at hr
    have key : ∀ (d r : List (κ × N)), sampleAll lib d = .ok r →
        List.Forall₂ (fun (x y : κ × N) => y.1 = x.1 ∧ lib.sample x.2 = .ok y.2) d r := by
      intro d
      induction d with
      | nil => intro r hr; cases hr; exact .nil
      | cons x d ih =>
        intro r hr
        unfold sampleAll at hr
        rw [List.mapM_cons] at hr
        cases hx : lib.sample x.2 with
        | error e => rw [hx] at hr; cases hr
        | ok n =>
          rw [hx] at hr
          change (sampleAll lib d >>= _) = _ at hr
          cases hd : sampleAll lib d with
          | error e => rw [hd] at hr; cases hr
          | ok r' =>
            rw [hd] at hr
            cases hr
            exact .cons ⟨rfl, hx⟩ (ih r' hd)
    cases hs : sampleAll lib d with
    | error e => rw [hs] at hr; cases hr
    | ok r' => rw [hs] at hr; cases hr; exact key d r hs

/-- A new object reads queries exactly if the settings have the key; whatever was called before. -/
theorem C113_new (lib : Lib X N) (k : Bool) (cs : List (Call X κ)) (n : Nat) :
    (call lib (calls lib (newTT k) cs) (.readQueries true n)).2 = (if k then .ok .none else .error .key) ∧
    (call lib (calls lib (newTT k) cs) .sampleTokens).2 = .error .attribute := by
  obtain ⟨h1, h2, h3, _⟩ := C113_queries_samples lib (newTT k : TT X N κ) cs
  refine ⟨?_, h3 rfl⟩
  cases k
  · exact h1 true n rfl
  · exact h2 true n rfl (.inl rfl)

/-! ## C114: similarities, distances and ranks -/

/-- The calls that compute similarities or distances. -/
def IsSim : Call X κ → Prop
  | .computeSimilarity _ _ _ _ => True
  | .computeDistance _ _ => True
  | _ => False

theorem call_simmx (lib : Lib X N) (s : TT X N κ) {c : Call X κ} (hc : ¬ IsSim c) : (call lib s c).1.simmx = s.simmx := by
  cases c <;> first
    | exact absurd trivial hc
    | (simp only [call]
       repeat' split
       all_goals rfl)

theorem calls_simmx (lib : Lib X N) (s : TT X N κ) (cs : List (Call X κ)) (h : ∀ c ∈ cs, ¬ IsSim c) :
    (calls lib s cs).simmx = s.simmx := by
  induction cs generalizing s with
  | nil => rfl
  | cons c cs ih =>
    exact (ih _ (fun c' hc' => h c' (by simp [hc']))).trans (call_simmx lib s (h c (by simp)))

theorem calls_append (lib : Lib X N) (s : TT X N κ) (as bs : List (Call X κ)) :
    calls lib s (as ++ bs) = calls lib (calls lib s as) bs := by
  unfold calls; rw [List.foldl_append]

/-- **C114 (partial).** In every state, the cosine similarities of a given matrix are those of `mxcalc`, they are
returned, and they are kept as `simmx` until the next computation of similarities or distances, whatever is called in
between.  Missing: matrices that are not given (`C114_not_given`). -/
theorem C114_similarity_partial (lib : Lib X N) (s : TT X N κ) (m r : X) (axis : Int) (metric : List Char)
    (hm : metric = "cos".toList ∨ metric = "cosine".toList) (h : lib.cosine m axis = .ok r)
    (after : List (Call X κ)) (ha : ∀ c ∈ after, ¬ IsSim c) :
    (call lib s (.computeSimilarity (some m) metric false axis)).2 = .ok (.mtx r) ∧
    (calls lib s (.computeSimilarity (some m) metric false axis :: after)).simmx = some r := by
  have hc : call lib s (.computeSimilarity (some m) metric false axis) = ({ s with simmx := some r }, .ok (.mtx r)) := by
    simp only [call]
    rw [if_pos hm]
    simp only [Option.or, cosineArg, h, rankAfter]
    rfl
  refine ⟨by rw [hc], ?_⟩
  show (calls lib (call lib s (.computeSimilarity (some m) metric false axis)).1 after).simmx = some r
  rw [calls_simmx lib _ after ha, hc]

/-- With `rank=True` the ranks of these similarities are kept as well; if they cannot be computed the exception is
raised but the similarities are kept. -/
theorem C114_rank (lib : Lib X N) (s : TT X N κ) (m r : X) (axis : Int) (metric : List Char)
    (hm : metric = "cos".toList ∨ metric = "cosine".toList) (h : lib.cosine m axis = .ok r) :
    (∀ q, lib.simrank r false = .ok q → call lib s (.computeSimilarity (some m) metric true axis) =
      ({ s with simmx := some r, rankmx := some q }, .ok (.mtx r))) ∧
    (∀ e, lib.simrank r false = .error e → call lib s (.computeSimilarity (some m) metric true axis) =
      ({ s with simmx := some r }, .error e)) := by
  constructor
  · intro q hq
    simp only [call]
    rw [if_pos hm]
    simp only [Option.or, cosineArg, h, rankAfter, hq]
    rfl
  · intro e he
    simp only [call]
    rw [if_pos hm]
    simp only [Option.or, cosineArg, h, rankAfter, he]
    rfl

/-- Distances of a given matrix are those of `mxcalc`; but they are kept as the similarities. -/
theorem C114_distance (lib : Lib X N) (s : TT X N κ) (m r : X) (metric : List Char) (h : lib.distance m metric = .ok r) :
    call lib s (.computeDistance (some m) metric) = ({ s with simmx := some r }, .ok (.mtx r)) := by
  simp only [call, Option.or, matrixArg, h]

/-- Ranks of a given matrix are those of `mxcalc`. -/
theorem C114_given_ranks (lib : Lib X N) (s : TT X N κ) (m r : X) (reverse : Bool) (h : lib.simrank m reverse = .ok r) :
    call lib s (.computeSimrank (some m) reverse) = ({ s with rankmx := some r }, .ok (.mtx r)) := by
  simp only [call, matrixArg, h]

/-- **C114 is false**: after any history, similarities and distances cannot be computed unless a matrix is given, ranks
of the similarities computed before neither, and no distances are kept. -/
theorem C114_false (lib : Lib X N) (k : Bool) (cs : List (Call X κ)) :
    (∀ metric, call lib (calls lib (newTT k) cs) (.computeDistance none metric) =
      (calls lib (newTT k) cs, .error .attribute)) ∧
    (∀ metric rank axis, call lib (calls lib (newTT k) cs) (.computeSimilarity none metric rank axis) =
      (calls lib (newTT k) cs, .error (if metric = "cos".toList ∨ metric = "cosine".toList then
        (if axis = 0 ∨ axis = 1 then .attribute else .value) else .notImplemented))) ∧
    (∀ reverse, call lib (calls lib (newTT k) cs) (.computeSimrank none reverse) =
      (calls lib (newTT k) cs, .error .attribute)) ∧
    (calls lib (newTT k) cs).distmx = none := by
  have h := C113_unchanged lib (newTT k : TT X N κ) cs
  have hmeas : (calls lib (newTT k) cs).measmx = none := h.2.2.2.1
  refine ⟨fun metric => ?_, fun metric rank axis => ?_, fun _ => rfl, h.2.2.2.2.1⟩
  · simp only [call, hmeas, Option.or, matrixArg]
  · simp only [call, hmeas, Option.or, cosineArg]
    by_cases hm : metric = "cos".toList ∨ metric = "cosine".toList
    · rw [if_pos hm, if_pos hm]
      by_cases hx : axis = 0 ∨ axis = 1
      · simp only [if_pos hx]
      · simp only [if_neg hx]
    · rw [if_neg hm, if_neg hm]

/-- Other metrics are refused for similarities, and nothing changes. -/
theorem C114_metric (lib : Lib X N) (s : TT X N κ) (m : Option X) (metric : List Char) (rank : Bool) (axis : Int)
    (hm : ¬ (metric = "cos".toList ∨ metric = "cosine".toList)) :
    call lib s (.computeSimilarity m metric rank axis) = (s, .error .notImplemented) := by
  simp only [call]
  rw [if_neg hm]

/-- A library on numbers, and a history: similarities, a failing call, ranks; then distances. -/
def sampleLib : Lib Nat Unit :=
  ⟨fun m a => .ok (m + a.toNat), fun m _ => .ok (10 * m), fun m _ => if m = 0 then .error .lib else .ok (m + 100), fun _ => .error .lib⟩

/-- Non-vacuity of the theorems above. -/
example : (calls sampleLib (newTT true : TT Nat Unit Nat)
      [.computeSimilarity (some 7) "cos".toList true 1, .buildVocab, .computeSimrank (some 3) true]).simmx = some 8 ∧
    (calls sampleLib (newTT true : TT Nat Unit Nat)
      [.computeSimilarity (some 7) "cos".toList true 1, .buildVocab, .computeDistance (some 3) []]).simmx = some 30 := by
  refine ⟨?_, ?_⟩ <;> rfl

example : (∀ c ∈ ([.buildVocab, .computeSimrank (some 3) true] : List (Call Nat Nat)), ¬ IsSim c) ∧
    Builds (.buildVocab : Call Nat Nat) ∧ Vocab.len (⟨[(1, 2)], true, false⟩ : Vocab Nat) ≠ 0 := by
  refine ⟨?_, .vocab, by decide⟩
  intro c hc
  simp only [List.mem_cons, List.not_mem_nil, or_false] at hc
  rcases hc with rfl | rfl <;> exact id

end Verif.Flow
