import Verif.Regex.PropsTokenLayout
import Verif.Flow.PropsTokenVectors
import Verif.Engine.PropsProgress

/-!
# C199: from the settings and the texts of a corpus to the matrix of tokens
-/

namespace Verif.Regex

open Verif.Py
open Verif.Vocab.Plain (Str natStr)
open Verif.Vocab (Vocab)
open Verif.Items (Settings Formatter construct tokenOf splitext split join natStr_noSlash natStr_inj split_append split_noc)
open Verif.Window (segments keepOf)
open Verif.Matrix (Mtx storedEntry Valid)
open Verif.Flow (RetrieveRun IsOcc KeptAt InWindow handlerVocab collocsOf occNames retrieve)

/-! ### Specification -/

/-- A corpus: the paths of its files within its directory, with their lines. -/
abbrev Corpus := List (Str × List Str)

/-- The names of all lines of the corpus whose type is asked for. -/
def Layout.tokens (a : Layout) (tok qs : List Str) (corpus : Corpus) : List Str :=
  corpus.flatMap (fun F => ((a.entries tok (splitext F.1) 1 F.2).flatten.filter (fun e => decide (e.type ∈ qs))).map Occ.name)

/-- A line whose type is asked for: position `i` of the section `xs` of the file `F`. -/
structure Layout.At (a : Layout) (tok qs : List Str) (corpus : Corpus) (F : Str × List Str) (xs : List Occ) (i : Nat) (e : Occ) : Prop where
  file : F ∈ corpus
  sec : xs ∈ a.entries tok (splitext F.1) 1 F.2
  pos : xs[i]? = some e
  query : e.type ∈ qs

/-- The files as the handler reads them. -/
def texts (corpus : Corpus) : List (Str × List Str) := corpus.map (fun F => (F.1, fileLines (textOf F.2)))

/-- The name the code gives to a token. -/
def nameOf (f : Formatter) (path : Str) (m : Verif.Items.Match) (n : Nat) : Str :=
  match tokenOf f m path n with
  | .ok x => x
  | .error _ => []

/-! ### Names are distinct -/

theorem name_end (c : Char) (vs : List Str) {x y : Str} (hx : c ∉ x) (hy : c ∉ y) :
    ∃ t, split c (join c (vs ++ [x, y])).reverse = y.reverse :: x.reverse :: t := by
  have h2 : join c [x, y] = x ++ c :: y := rfl
  have hmem : ∀ {z : Str}, c ∉ z → c ∉ z.reverse := fun h => by simpa using h
  have : ∃ p, join c (vs ++ [x, y]) = p ++ (x ++ c :: y) ∧ (p = [] ∨ ∃ q, p = q ++ [c]) := by
    induction vs with
    | nil => exact ⟨[], h2, .inl rfl⟩
    | cons v vs ih =>
      obtain ⟨p, h1, h3⟩ := ih
      refine ⟨v ++ c :: p, ?_, .inr ?_⟩
      · rw [List.cons_append, Verif.Items.join_cons c v (by simp), h1]
        simp
      · rcases h3 with rfl | ⟨q, rfl⟩
        · exact ⟨v, rfl⟩
        · exact ⟨v ++ c :: q, by simp⟩
  obtain ⟨p, h1, h3⟩ := this
  rw [h1]
  rcases h3 with rfl | ⟨q, rfl⟩
  · refine ⟨[], ?_⟩
    rw [show (([] : Str) ++ (x ++ c :: y)).reverse = y.reverse ++ c :: x.reverse by simp, split_append c _ _ (hmem hy), split_noc c _ (hmem hx)]
  · refine ⟨split c q.reverse, ?_⟩
    rw [show (q ++ [c] ++ (x ++ c :: y)).reverse = y.reverse ++ c :: (x.reverse ++ c :: q.reverse) by simp, split_append c _ _ (hmem hy),
      split_append c _ _ (hmem hx)]

theorem tokenName_inj {names vals vals' parts : List Str} {file file' : Str} {n n' : Nat} (h1 : '/' ∉ file) (h2 : '/' ∉ file')
    (h : tokenName names vals parts file n = tokenName names vals' parts file' n') : file = file' ∧ n = n' := by
  unfold tokenName at h
  obtain ⟨t, e⟩ := name_end '/' (parts.map (fun c => (vals[names.idxOf c]?).getD [])) h1 (natStr_noSlash n)
  obtain ⟨t', e'⟩ := name_end '/' (parts.map (fun c => (vals'[names.idxOf c]?).getD [])) h2 (natStr_noSlash n')
  rw [h, e'] at e
  rw [List.cons.injEq, List.cons.injEq] at e
  exact ⟨(List.reverse_inj.1 e.2.1).symm, (natStr_inj (List.reverse_inj.1 e.1)).symm⟩

theorem entries_flatten (a : Layout) (tok : List Str) (file : Str) (n : Nat) (lines : List Str) :
    (a.entries tok file n lines).flatten = (lines.zipIdx n).filterMap (fun p => a.entry tok file p.2 p.1) := by
  induction lines generalizing n with
  | nil => rfl
  | cons l ls ih =>
    rw [Layout.entries, List.zipIdx_cons, List.filterMap_cons, ← ih]
    have hne := layout_entries_ne a tok file (n + 1) ls
    cases he : a.entry tok file n l with
    | some x =>
      simp only
      cases hs : a.entries tok file (n + 1) ls with
      | nil => exact absurd hs hne
      | cons y ys => rfl
    | none =>
      simp only
      split <;> rfl

/-- If the files have distinct names up to their extension, and lie in one directory, the names of the tokens are distinct. -/
theorem tokens_nodup (a : Layout) (tok qs : List Str) {corpus : Corpus} (hd : (corpus.map (fun F => splitext F.1)).Nodup)
    (hs : ∀ F ∈ corpus, '/' ∉ splitext F.1) : (a.tokens tok qs corpus).Nodup := by
  have hname : ∀ {F : Str} {n : Nat} {l : Str} {e : Occ}, a.entry tok F n l = some e → ∃ vals, e.name = tokenName a.names vals tok F n := by
    intro F n l e h
    unfold Layout.entry at h
    obtain ⟨v, _, rfl⟩ := Option.map_eq_some_iff.1 h
    exact ⟨_, rfl⟩
  unfold Layout.tokens
  rw [List.nodup_flatMap]
  constructor
  · intro F hF
    rw [entries_flatten]
    refine List.Nodup.sublist (List.filter_sublist.map _) ?_
    rw [List.Nodup, List.pairwise_map, List.pairwise_filterMap]
    have : (F.2.zipIdx 1).Pairwise (fun p q => p.2 ≠ q.2) := by
      rw [← List.pairwise_map (f := Prod.snd) (R := (· ≠ ·)), List.zipIdx_map_snd]
      exact List.nodup_range'
    refine this.imp ?_
    intro p q hpq e he e' he' heq
    obtain ⟨v, h1⟩ := hname he
    obtain ⟨v', h2⟩ := hname he'
    rw [h1, h2] at heq
    exact hpq (tokenName_inj (hs F hF) (hs F hF) heq).2
  · rw [List.Nodup, List.pairwise_map] at hd
    refine hd.imp_of_mem ?_
    intro F G hF hG hne
    simp only [Function.onFun]
    intro x hx hx'
    obtain ⟨e, he, rfl⟩ := List.mem_map.1 hx
    obtain ⟨e', he', heq⟩ := List.mem_map.1 hx'
    have m1 := (List.mem_filter.1 he).1
    have m2 := (List.mem_filter.1 he').1
    rw [entries_flatten] at m1 m2
    obtain ⟨p, _, h1⟩ := List.mem_filterMap.1 m1
    obtain ⟨q, _, h2⟩ := List.mem_filterMap.1 m2
    obtain ⟨v, g1⟩ := hname h1
    obtain ⟨v', g2⟩ := hname h2
    rw [g1, g2] at heq
    exact hne (tokenName_inj (hs G hG) (hs F hF) heq).1.symm

/-! ### The matrix of tokens -/

section
variable (u : Tables) {s s' : Settings} {f : Formatter} {a : Layout} {tok : List Str}

theorem entryOf_some {path : Str} {x : Verif.Items.Match × Nat} {e : Occ} (h : entryOf u f path x = some e) :
    (asFormatter (reMatch u) f).getType x.1 = e.type ∧ (asFormatter (reMatch u) f).getColloc x.1 = e.colloc ∧
    nameOf f path x.1 x.2 = e.name := by
  unfold entryOf at h
  unfold nameOf
  split at h
  · rename_i n hn
    obtain rfl := Option.some.inj h
    rw [hn]
    exact ⟨rfl, rfl, rfl⟩
  · cases h

theorem filter_same {α β γ : Type} {E : α → Option β} {p : α → Bool} {q : β → Bool} {n : α → γ} {n' : β → γ}
    (hE : ∀ x e, E x = some e → p x = q e ∧ n x = n' e) :
    ∀ {as : List α} {bs : List β}, as.map E = bs.map some → (as.filter p).map n = (bs.filter q).map n'
  | [], [], _ => rfl
  | [], _ :: _, h => by simp at h
  | _ :: _, [], h => by simp at h
  | x :: as, e :: bs, h => by
    rw [List.map_cons, List.map_cons, List.cons.injEq] at h
    obtain ⟨h1, h2⟩ := hE x e h.1
    have ih := filter_same hE h.2
    rw [List.filter_cons, List.filter_cons, h1]
    split
    · rw [List.map_cons, List.map_cons, ih, h2]
    · exact ih

variable (hf : construct s = .ok (s', f)) (hd : Describes s a) (htok : ∃ fmt x y, Dict.get? s "token" = some fmt ∧
    split '/' fmt = tok ++ [x, y]) {corpus : Corpus} (hl : ∀ F ∈ corpus, ∀ l ∈ F.2, Fine l)
include hf hd htok hl

theorem occNames_text (qs : List Str) :
    occNames (asFormatter (reMatch u) f) (nameOf f) qs (texts corpus) = a.tokens tok qs corpus := by
  unfold occNames texts Layout.tokens
  rw [List.flatMap_map]
  refine List.flatMap_congr fun F hF => ?_
  have hseg := layout_segments u hf hd htok F.1 (hl F hF)
  have hfl := congrArg List.flatten hseg
  rw [← List.map_flatten, ← List.map_flatten] at hfl
  refine filter_same (fun x e he => ?_) hfl
  obtain ⟨h1, _, h3⟩ := entryOf_some u he
  exact ⟨decide_eq_decide.2 (by rw [h1]), h3⟩

theorem occ_at {qs : List Str} {F : Str × List Str} {xs : List (Verif.Items.Match × Nat)} {i : Nat} {x : Verif.Items.Match × Nat}
    (h : IsOcc (asFormatter (reMatch u) f) qs (texts corpus) F xs i x) :
    ∃ G ys e, a.At tok qs corpus G ys i e ∧ collocsOf (asFormatter (reMatch u) f) xs = ys.map Occ.colloc ∧ nameOf f F.1 x.1 x.2 = e.name ∧
      (asFormatter (reMatch u) f).getType x.1 = e.type := by
  obtain ⟨h1, h2, h3, h4⟩ := h
  obtain ⟨G, hG, rfl⟩ := List.mem_map.1 h1
  have hseg := layout_segments u hf hd htok G.1 (hl G hG)
  have hm : xs.map (entryOf u f G.1) ∈ (a.entries tok (splitext G.1) 1 G.2).map (List.map some) := hseg ▸ List.mem_map_of_mem h2
  obtain ⟨ys, hys, hy⟩ := List.mem_map.1 hm
  have hi := congrArg (fun l => l[i]?) hy
  simp only [List.getElem?_map, h3, Option.map_some] at hi
  obtain ⟨e, he, hee⟩ := Option.map_eq_some_iff.1 hi
  obtain ⟨t1, t2, t3⟩ := entryOf_some u hee.symm
  refine ⟨G, ys, e, ⟨hG, hys, he, t1 ▸ h4⟩, ?_, t3, t1⟩
  have := filter_same (E := entryOf u f G.1) (p := fun _ => true) (q := fun _ => true)
    (n := fun x => (asFormatter (reMatch u) f).getColloc x.1) (n' := Occ.colloc)
    (fun x e he => ⟨rfl, (entryOf_some u he).2.1⟩) hy.symm
  simpa [collocsOf] using this

theorem at_occ {qs : List Str} {G : Str × List Str} {ys : List Occ} {i : Nat} {e : Occ} (h : a.At tok qs corpus G ys i e) :
    ∃ F xs x, IsOcc (asFormatter (reMatch u) f) qs (texts corpus) F xs i x ∧
      collocsOf (asFormatter (reMatch u) f) xs = ys.map Occ.colloc ∧ nameOf f F.1 x.1 x.2 = e.name ∧
      (asFormatter (reMatch u) f).getType x.1 = e.type := by
  obtain ⟨hG, hys, he, hq⟩ := h
  have hseg := layout_segments u hf hd htok G.1 (hl G hG)
  have hm : ys.map some ∈ (segments (asFormatter (reMatch u) f) (fileLines (textOf G.2))).map (List.map (entryOf u f G.1)) :=
    hseg ▸ List.mem_map_of_mem hys
  obtain ⟨xs, hxs, hx⟩ := List.mem_map.1 hm
  have hi := congrArg (fun l => l[i]?) hx
  simp only [List.getElem?_map, he, Option.map_some] at hi
  obtain ⟨x, hxi, hee⟩ := Option.map_eq_some_iff.1 hi
  obtain ⟨t1, t2, t3⟩ := entryOf_some u hee
  refine ⟨(G.1, fileLines (textOf G.2)), xs, x, ⟨List.mem_map_of_mem (f := fun F : Str × List Str => (F.1, fileLines (textOf F.2))) hG, hxs, hxi, t1 ▸ hq⟩, ?_, t3, t1⟩
  have := filter_same (E := entryOf u f G.1) (p := fun _ => true) (q := fun _ => true)
    (n := fun x => (asFormatter (reMatch u) f).getColloc x.1) (n' := Occ.colloc)
    (fun x e he => ⟨rfl, (entryOf_some u he).2.1⟩) hx
  simpa [collocsOf] using this

/-- **C199**, for all vocabularies: one row per line of the queries; the entry of a line and a collocate is absent if the
collocate is not kept within the spans, and otherwise the greatest of its signed ranks among the kept collocates. -/
theorem C199_exact {L R : Nat} (hR : R ≠ 0) {colv : Vocab Str} {qs : List Str} (hq : qs.Nodup)
    {st : Verif.Engine.State (Str × List Str) (Bool × Verif.Flow.Toks Str Verif.Items.Match Str) (Verif.Engine.TokRes (Verif.Flow.Toks Str Verif.Items.Match Str))}
    (h : RetrieveRun (asFormatter (reMatch u) f) L R colv qs (texts corpus) st) (hname : (a.tokens tok qs corpus).Nodup)
    {order : List Str → List Str} (horder : ∀ l, (order l).Perm l) :
    ((∀ F xs i e c d, a.At tok qs corpus F xs i e → ¬ KeptAt (keepOf (handlerVocab colv)) L R (xs.map Occ.colloc) i c d) →
      retrieve (asFormatter (reMatch u) f) (nameOf f) order (texts corpus).length st = some (.error .valueError)) ∧
    ((∃ F xs i e c d, a.At tok qs corpus F xs i e ∧ KeptAt (keepOf (handlerVocab colv)) L R (xs.map Occ.colloc) i c d) →
      ∃ m, retrieve (asFormatter (reMatch u) f) (nameOf f) order (texts corpus).length st = some (.ok m) ∧ Valid m ∧
        m.rows.Perm (a.tokens tok qs corpus) ∧
        ∀ F xs i e, a.At tok qs corpus F xs i e → ∀ c,
          (storedEntry m e.name c = none ↔ ∀ d, ¬ KeptAt (keepOf (handlerVocab colv)) L R (xs.map Occ.colloc) i c d) ∧
          ∀ d, storedEntry m e.name c = some d → KeptAt (keepOf (handlerVocab colv)) L R (xs.map Occ.colloc) i c d ∧
            ∀ d', KeptAt (keepOf (handlerVocab colv)) L R (xs.map Occ.colloc) i c d' → d' ≤ d) := by
  have hn := occNames_text u hf hd htok hl qs
  constructor
  · intro hno
    refine Verif.Flow.C111_nothing hR hq h (nameOf f) order ?_
    intro F xs i x c d ho
    obtain ⟨G, ys, e, g1, g2, _, _⟩ := occ_at u hf hd htok hl ho
    rw [g2]
    exact hno G ys i e c d g1
  · rintro ⟨G, ys, i, e, c, d, g1, g2⟩
    obtain ⟨F, xs, x, k1, k2, _, _⟩ := at_occ u hf hd htok hl g1
    obtain ⟨m, m1, m2, m3, m4⟩ := Verif.Flow.C112_exact hR hq h (name := nameOf f) (hn ▸ hname) horder ⟨F, xs, i, x, c, d, k1, k2 ▸ g2⟩
    refine ⟨m, m1, m2, hn ▸ m3, ?_⟩
    intro G ys i e ha c
    obtain ⟨F, xs, x, k1, k2, k3, _⟩ := at_occ u hf hd htok hl ha
    have := m4 F xs i x k1 c
    rw [k2, k3] at this
    exact this

/-- **C199** (partial): without a column vocabulary, or if it has all that stands near the lines of the queries, retrieving tokens from
the texts of a corpus gives one row per line of the queries, and the entry of a line and a collocate is the signed distance of the
collocate (the greatest, if it stands there more than once), absent if it does not stand within the spans.  Missing: vocabularies
that leave something out (`C112_false`), right span 0 (`C197_false`), workers without files (`C05_false`), equal names. -/
theorem C199_partial {L R : Nat} (hR : R ≠ 0) {colv : Vocab Str} {qs : List Str} (hq : qs.Nodup)
    {st : Verif.Engine.State (Str × List Str) (Bool × Verif.Flow.Toks Str Verif.Items.Match Str) (Verif.Engine.TokRes (Verif.Flow.Toks Str Verif.Items.Match Str))}
    (h : RetrieveRun (asFormatter (reMatch u) f) L R colv qs (texts corpus) st)
    (hdist : (corpus.map (fun F => splitext F.1)).Nodup) (hdir : ∀ F ∈ corpus, '/' ∉ splitext F.1)
    {order : List Str → List Str} (horder : ∀ l, (order l).Perm l)
    (hcol : colv.freq = [] ∨ ∀ F xs i e c d, a.At tok qs corpus F xs i e → InWindow L R (xs.map Occ.colloc) i c d → c ∈ colv.freq.keys)
    (hctx : ∃ F xs i e c d, a.At tok qs corpus F xs i e ∧ InWindow L R (xs.map Occ.colloc) i c d) :
    ∃ m, retrieve (asFormatter (reMatch u) f) (nameOf f) order (texts corpus).length st = some (.ok m) ∧ Valid m ∧
      m.rows.Perm (a.tokens tok qs corpus) ∧
      ∀ F xs i e, a.At tok qs corpus F xs i e → ∀ c,
        (storedEntry m e.name c = none ↔ ∀ d, ¬ InWindow L R (xs.map Occ.colloc) i c d) ∧
        ∀ d, storedEntry m e.name c = some d → InWindow L R (xs.map Occ.colloc) i c d ∧
          ∀ d', InWindow L R (xs.map Occ.colloc) i c d' → d' ≤ d := by
  have hn := occNames_text u hf hd htok hl qs
  obtain ⟨G, ys, i, e, c, d, g1, g2⟩ := hctx
  obtain ⟨F, xs, x, k1, k2, _, _⟩ := at_occ u hf hd htok hl g1
  obtain ⟨m, m1, m2, m3, m4⟩ := Verif.Flow.C111_retrieve_partial hR hq h (name := nameOf f)
    (hn ▸ tokens_nodup a tok qs hdist hdir) horder
    (hcol.imp id fun hc F xs i x c d ho hw => by
      obtain ⟨G, ys, e, j1, j2, _, _⟩ := occ_at u hf hd htok hl ho
      exact hc G ys i e c d j1 (j2 ▸ hw)) ⟨F, xs, i, x, c, d, k1, k2 ▸ g2⟩
  refine ⟨m, m1, m2, hn ▸ m3, ?_⟩
  intro G ys i e ha c
  obtain ⟨F, xs, x, k1, k2, k3, _⟩ := at_occ u hf hd htok hl ha
  have := m4 F xs i x k1 c
  rw [k2, k3] at this
  exact this

/-- **C199**, the vectors of tokens: with weights of types and contexts and second-order vectors of contexts, the vector of a line of
the queries is the sum, over what stands within the spans on lines not separated from it and is in the vocabulary, each once, of the
weight times the vector; or that sum divided by the sum of the weights, where this is not 0. -/
theorem C199_vectors {L R : Nat} (hR : R ≠ 0) {colv : Vocab Str} {qs : List Str} (hq : qs.Nodup)
    {st : Verif.Engine.State (Str × List Str) (Bool × Verif.Flow.Toks Str Verif.Items.Match Str) (Verif.Engine.TokRes (Verif.Flow.Toks Str Verif.Items.Match Str))}
    (h : RetrieveRun (asFormatter (reMatch u) f) L R colv qs (texts corpus) st) (hname : (a.tokens tok qs corpus).Nodup)
    {order : List Str → List Str} (horder : ∀ l, (order l).Perm l)
    (hctx : ∃ F xs i e c, a.At tok qs corpus F xs i e ∧ c ∈ Verif.Flow.contexts L R colv (xs.map Occ.colloc) i)
    {typeOf : Str → Str} (htype : ∀ F xs i e, a.At tok qs corpus F xs i e → typeOf e.name = e.type) :
    ∃ m, retrieve (asFormatter (reMatch u) f) (nameOf f) order (texts corpus).length st = some (.ok m) ∧
      ∀ (W so : Mtx Str ℝ) (ws : Verif.Matrix.Sp ℝ), Valid W → Valid so → W.body = .sp ws → Verif.Matrix.IsCsr so → W.cols = m.cols →
        (∀ c, c ∈ so.rows ↔ c ∈ m.cols) →
        ∃ w v v', Assoc.computeTokenWeights typeOf (Cooc.toReal m) W = .ok w ∧
          Assoc.computeTokenVectors w so .addition .no = .ok v ∧ Assoc.computeTokenVectors w so .weightedmean .no = .ok v' ∧
          v.cols = so.cols ∧ v'.cols = so.cols ∧ v.rows.Perm (a.tokens tok qs corpus) ∧ v'.rows.Perm (a.tokens tok qs corpus) ∧
          ∀ F xs i e, a.At tok qs corpus F xs i e → ∀ g ∈ so.cols, ∀ ctx, ctx = Verif.Flow.contexts L R colv (xs.map Occ.colloc) i →
            Verif.Matrix.entry v e.name g = (ctx.map (fun c => Verif.Matrix.entry W e.type c * Verif.Matrix.entry so c g)).sum ∧
            ((ctx.map (fun c => Verif.Matrix.entry W e.type c)).sum ≠ 0 →
              Verif.Matrix.entry v' e.name g = (ctx.map (fun c => Verif.Matrix.entry W e.type c * Verif.Matrix.entry so c g)).sum /
                (ctx.map (fun c => Verif.Matrix.entry W e.type c)).sum) := by
  have hn := occNames_text u hf hd htok hl qs
  obtain ⟨G, ys, i, e, c, g1, g2⟩ := hctx
  obtain ⟨F, xs, x, k1, k2, _, _⟩ := at_occ u hf hd htok hl g1
  obtain ⟨m, m1, m2⟩ := Verif.Flow.C192_partial hR hq h (name := nameOf f) (hn ▸ hname) horder ⟨F, xs, i, x, c, k1, k2 ▸ g2⟩
    (typeOf := typeOf) (fun F xs i x ho => by
      obtain ⟨G, ys, e, j1, _, j3, j4⟩ := occ_at u hf hd htok hl ho
      rw [j3, j4]
      exact htype G ys i e j1)
  refine ⟨m, m1, fun W so ws h1 h2 h3 h4 h5 h6 => ?_⟩
  obtain ⟨w, v, v', w1, w2, w3, w4, w5, w6, w7, w8⟩ := m2 W so ws h1 h2 h3 h4 h5 h6
  refine ⟨w, v, v', w1, w2, w3, w4, w5, hn ▸ w6, hn ▸ w7, ?_⟩
  intro G ys i e ha g hg ctx hc
  obtain ⟨F, xs, x, k1, k2, k3, k4⟩ := at_occ u hf hd htok hl ha
  have := w8 F xs i x k1 g hg ctx (by rw [k2]; exact hc)
  rw [k3, k4] at this
  exact this

end

/-! ### The format of the tutorial -/

/-- Three words in the format of the tutorial. -/
def oldLines : List Str :=
  ["The\tDT\tthe\t1\t3\tdet".toList, "old\tJJ\told\t2\t3\tamod".toList, "girls\tNNS\tgirl\t3\t4\tnsubj".toList, "</s>".toList]

def oldCorpus : Corpus := [("a.conll".toList, oldLines)]

theorem old_fine : ∀ F ∈ oldCorpus, ∀ l ∈ F.2, Fine l := by
  intro F hF l hl
  rw [List.mem_singleton.1 hF] at hl
  simp only [oldLines, List.mem_cons, List.not_mem_nil, or_false] at hl
  rcases hl with rfl | rfl | rfl | rfl
  · exact ⟨by decide, .inr ⟨⟨'T', rfl, by decide⟩, ⟨'t', rfl, by decide⟩⟩⟩
  · exact ⟨by decide, .inr ⟨⟨'o', rfl, by decide⟩, ⟨'d', rfl, by decide⟩⟩⟩
  · exact ⟨by decide, .inr ⟨⟨'g', rfl, by decide⟩, ⟨'j', rfl, by decide⟩⟩⟩
  · exact ⟨by decide, .inr ⟨⟨'<', rfl, by decide⟩, ⟨'>', rfl, by decide⟩⟩⟩

/-- The section of that text. -/
def oldSection : List Occ :=
  [⟨"the/D".toList, "the/D".toList, "the/D/a/1".toList⟩, ⟨"old/J".toList, "old/J".toList, "old/J/a/2".toList⟩,
   ⟨"girl/N".toList, "girl/N".toList, "girl/N/a/3".toList⟩]

theorem old_at : tutorialLayout.At ["lemma".toList, "pos".toList] ["girl/N".toList] oldCorpus ("a.conll".toList, oldLines) oldSection 2
    ⟨"girl/N".toList, "girl/N".toList, "girl/N/a/3".toList⟩ :=
  ⟨List.mem_singleton.2 rfl, by decide +kernel, rfl, by decide +kernel⟩

theorem old_tokens : tutorialLayout.tokens ["lemma".toList, "pos".toList] ["girl/N".toList] oldCorpus = ["girl/N/a/3".toList] := by
  decide +kernel

theorem old_run (colv : Vocab Str) (f : Formatter) : ∃ st, RetrieveRun (asFormatter (reMatch ascii) f) 4 4 colv ["girl/N".toList] (texts oldCorpus) st := by
  obtain ⟨as, st, h1, h2, h3, h4, h5⟩ := Verif.Engine.single_run
    (Verif.Flow.retrieveProg (asFormatter (reMatch ascii) f) 4 4 colv ["girl/N".toList]) (files := texts oldCorpus) (by simp [texts, oldCorpus])
  exact ⟨st, 1, as, h1, h2, h3, h4, h5⟩

/-- The hypotheses of `C199_partial` hold, and the distance of `the` from `girls` is -2. -/
example : ∃ s' f st m, construct tutorial = .ok (s', f) ∧
    RetrieveRun (asFormatter (reMatch ascii) f) 4 4 Vocab.empty ["girl/N".toList] (texts oldCorpus) st ∧
    retrieve (asFormatter (reMatch ascii) f) (nameOf f) id (texts oldCorpus).length st = some (.ok m) ∧
    m.rows = ["girl/N/a/3".toList] ∧ storedEntry m "girl/N/a/3".toList "the/D".toList = some (-2) := by
  obtain ⟨s', f, hf⟩ := tutorial_describes.1
  obtain ⟨st, hst⟩ := old_run Vocab.empty f
  have hw : InWindow 4 4 (oldSection.map Occ.colloc) 2 "the/D".toList (-2) := ⟨0, rfl, by omega, by omega, by omega, by norm_num⟩
  obtain ⟨m, h1, _, h3, h4⟩ := C199_partial ascii hf tutorial_describes.2 tutorial_token old_fine (by decide) (List.nodup_singleton _) hst
    (by decide +kernel) (by decide +kernel) (order := id) (fun l => List.Perm.refl _) (.inl rfl) ⟨_, _, _, _, _, _, old_at, hw⟩
  refine ⟨s', f, st, m, hf, hst, h1, ?_, ?_⟩
  · rw [old_tokens] at h3
    exact List.perm_singleton.1 h3
  · obtain ⟨k1, k2⟩ := h4 _ _ _ _ old_at "the/D".toList
    cases he : storedEntry m "girl/N/a/3".toList "the/D".toList with
    | none => exact absurd hw (k1.1 he (-2))
    | some d =>
      obtain ⟨⟨j, q1, q2, q3, q4, q5⟩, _⟩ := k2 d he
      have : j = 0 := by
        rcases j with _ | _ | _ | j
        · rfl
        · exact absurd q1 (by decide +kernel)
        · exact absurd rfl q2
        · exact absurd q1 (by simp [oldSection])
      subst this
      rw [q5]
      norm_num

/-- The hypotheses of `C199_vectors` about contexts and types. -/
example : (∃ F xs i e c, tutorialLayout.At ["lemma".toList, "pos".toList] ["girl/N".toList] oldCorpus F xs i e ∧
      c ∈ Verif.Flow.contexts 4 4 Vocab.empty (xs.map Occ.colloc) i) ∧
    (∀ F xs i e, tutorialLayout.At ["lemma".toList, "pos".toList] ["girl/N".toList] oldCorpus F xs i e → (fun _ => "girl/N".toList) e.name = e.type) :=
  ⟨⟨_, _, _, _, "the/D".toList, old_at, by decide +kernel⟩, fun _ _ _ _ h => (List.mem_singleton.1 h.query).symm⟩

/-- A vocabulary that leaves out what stands between. -/
def onlyThe : Vocab Str := ⟨[("the/D".toList, 1)], true, false⟩

/-- **C199 is false** for vocabularies that leave something out: `the` stands two places before `girls`, but the entry is -1. -/
theorem C199_false : ∃ s' f st m, construct tutorial = .ok (s', f) ∧
    RetrieveRun (asFormatter (reMatch ascii) f) 4 4 onlyThe ["girl/N".toList] (texts oldCorpus) st ∧
    retrieve (asFormatter (reMatch ascii) f) (nameOf f) id (texts oldCorpus).length st = some (.ok m) ∧
    storedEntry m "girl/N/a/3".toList "the/D".toList = some (-1) ∧
    (∀ d, InWindow 4 4 (oldSection.map Occ.colloc) 2 "the/D".toList d → d = -2) := by
  obtain ⟨s', f, hf⟩ := tutorial_describes.1
  obtain ⟨st, hst⟩ := old_run onlyThe f
  have hpos : ∀ j : Nat, (oldSection.map Occ.colloc)[j]? = some "the/D".toList → j = 0 := by
    intro j q1
    rcases j with _ | _ | _ | j
    · rfl
    · exact absurd q1 (by decide +kernel)
    · exact absurd q1 (by decide +kernel)
    · exact absurd q1 (by simp [oldSection])
  have hcount : ((((oldSection.map Occ.colloc).take 2).drop 0).countP (keepOf (handlerVocab onlyThe)) : Nat) = 1 := by decide +kernel
  have hw : KeptAt (keepOf (handlerVocab onlyThe)) 4 4 (oldSection.map Occ.colloc) 2 "the/D".toList (-1) :=
    ⟨by decide +kernel, 0, rfl, .inl ⟨by omega, by omega, by rw [hcount]; rfl⟩⟩
  obtain ⟨m, h1, _, _, h4⟩ := (C199_exact ascii hf tutorial_describes.2 tutorial_token old_fine (by decide) (List.nodup_singleton _) hst
    (by rw [old_tokens]; exact List.nodup_singleton _) (order := id) (fun l => List.Perm.refl _)).2 ⟨_, _, _, _, _, _, old_at, hw⟩
  refine ⟨s', f, st, m, hf, hst, h1, ?_, ?_⟩
  · obtain ⟨k1, k2⟩ := h4 _ _ _ _ old_at "the/D".toList
    cases he : storedEntry m "girl/N/a/3".toList "the/D".toList with
    | none => exact absurd hw (k1.1 he (-1))
    | some d =>
      obtain ⟨⟨_, j, q1, q2⟩, _⟩ := k2 d he
      obtain rfl := hpos j q1
      rcases q2 with ⟨_, _, q3⟩ | ⟨q3, _, _⟩
      · rw [q3, hcount]
        rfl
      · omega
  · rintro d ⟨j, q1, _, _, _, q5⟩
    obtain rfl := hpos j q1
    rw [q5]
    norm_num

end Verif.Regex
