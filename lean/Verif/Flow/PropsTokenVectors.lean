import Verif.Flow.PropsRetrieve
import Verif.Cooc.PropsPpmi
import Verif.Assoc.PropsVectors

/-! # Property theorem C192 (from a corpus to the vectors of tokens) -/

set_option linter.unusedSectionVars false

namespace Verif.Flow
open Verif.Py Verif.Vocab Verif.Corpus Verif.Window Verif.Engine Verif.Matrix

variable {ℓ μ κ φ : Type} [LinearOrder κ]

/-! ### Specification -/

/-- The contexts of position `i`: what stands within the spans and is in the vocabulary (an empty vocabulary stands for
none), each once. -/
def contexts (L R : Nat) (colv : Vocab κ) (cs : List κ) (i : Nat) : List κ :=
  ((((cs.take i).drop (i - L)) ++ ((cs.drop (i + 1)).take R)).filter
    (fun c => decide (colv.freq = [] ∨ c ∈ colv.freq.keys))).dedup

/-! ### Proof -/

theorem mem_contexts {L R : Nat} {colv : Vocab κ} {cs : List κ} {i : Nat} (c : κ) :
    c ∈ contexts L R colv cs i ↔ ∃ d, KeptAt (keepOf (handlerVocab colv)) L R cs i c d := by
  unfold contexts KeptAt
  rw [List.mem_dedup, List.mem_filter, decide_eq_true_eq, ← keep_handler, List.mem_append]
  constructor
  · rintro ⟨h, hk⟩
    rcases h with h | h
    · obtain ⟨j, hj⟩ := List.mem_iff_getElem?.1 h
      rw [List.getElem?_drop, List.getElem?_take] at hj
      split at hj
      · exact ⟨_, hk, i - L + j, hj, Or.inl ⟨by omega, by omega, rfl⟩⟩
      · cases hj
    · obtain ⟨j, hj⟩ := List.mem_iff_getElem?.1 h
      rw [List.getElem?_take] at hj
      split at hj
      · rw [List.getElem?_drop] at hj
        exact ⟨_, hk, i + 1 + j, hj, Or.inr ⟨by omega, by omega, rfl⟩⟩
      · cases hj
  · rintro ⟨d, hk, j, hj, h⟩
    refine ⟨?_, hk⟩
    rcases h with ⟨h1, h2, _⟩ | ⟨h1, h2, _⟩
    · refine Or.inl (List.mem_iff_getElem?.2 ⟨j - (i - L), ?_⟩)
      rw [List.getElem?_drop, List.getElem?_take, if_pos (by omega)]
      rw [show i - L + (j - (i - L)) = j by omega]
      exact hj
    · refine Or.inr (List.mem_iff_getElem?.2 ⟨j - (i + 1), ?_⟩)
      rw [List.getElem?_take, if_pos (by omega), List.getElem?_drop, show i + 1 + (j - (i + 1)) = j by omega]
      exact hj

/-- Positions are never 0. -/
theorem keptAt_ne {keep : κ → Bool} {L R : Nat} {cs : List κ} {i : Nat} {c : κ} {d : Int} (h : KeptAt keep L R cs i c d) :
    d ≠ 0 := by
  obtain ⟨hk, j, hj, h⟩ := h
  rcases h with ⟨h1, h2, rfl⟩ | ⟨h1, h2, rfl⟩
  · have : 0 < ((cs.take i).drop j).countP keep := by
      rw [List.countP_pos_iff]
      refine ⟨c, List.mem_iff_getElem?.2 ⟨0, ?_⟩, hk⟩
      rw [List.getElem?_drop, List.getElem?_take, if_pos (by omega)]
      exact hj
    omega
  · have : 0 < ((cs.take (j + 1)).drop (i + 1)).countP keep := by
      rw [List.countP_pos_iff]
      refine ⟨c, List.mem_iff_getElem?.2 ⟨j - (i + 1), ?_⟩, hk⟩
      rw [List.getElem?_drop, List.getElem?_take, if_pos (by omega), show i + 1 + (j - (i + 1)) = j by omega]
      exact hj
    omega

/-- A sum over the columns of what is nonzero only for the members of a list without repetitions is the sum over it. -/
theorem sum_over {l ctx : List κ} (hl : l.Nodup) (hc : ctx.Nodup) (hsub : ∀ c ∈ ctx, c ∈ l) (g : κ → ℝ) :
    (l.map (fun c => if c ∈ ctx then g c else 0)).sum = (ctx.map g).sum := by
  rw [← List.sum_toFinset _ hl, ← List.sum_toFinset _ hc, ← Finset.sum_filter]
  refine Finset.sum_congr ?_ (fun _ _ => rfl)
  ext c
  simp only [Finset.mem_filter, List.mem_toFinset]
  exact ⟨fun h => h.2, fun h => ⟨hsub c h, h⟩⟩

/-- The weights of the contexts of all occurrences: the weight of the type and the context where the context stands within the spans, 0
elsewhere. -/
theorem token_weights {f : Formatter ℓ μ κ} {L R : Nat} (hR : R ≠ 0) {colv : Vocab κ} {qs : List κ} (hq : qs.Nodup)
    {files : List (φ × List ℓ)} {s : State (φ × List ℓ) (Bool × Toks φ μ κ) (TokRes (Toks φ μ κ))}
    (h : RetrieveRun f L R colv qs files s) {name : φ → μ → Nat → κ} (hname : (occNames f name qs files).Nodup)
    {order : List κ → List κ} (horder : ∀ l, (order l).Perm l)
    (hctx : ∃ F xs i x c, IsOcc f qs files F xs i x ∧ c ∈ contexts L R colv (collocsOf f xs) i)
    {typeOf : κ → κ} (htype : ∀ F xs i x, IsOcc f qs files F xs i x → typeOf (name F.1 x.1 x.2) = f.getType x.1) :
    ∃ m, retrieve f name order files.length s = some (.ok m) ∧
      ∀ (W : Mtx κ ℝ) (ws : Sp ℝ), Valid W → W.body = .sp ws → W.cols = m.cols →
        ∃ w, Assoc.computeTokenWeights typeOf (Cooc.toReal m) W = .ok w ∧ Valid w ∧ IsCsr w ∧ w.cols = m.cols ∧
          w.rows.Perm (occNames f name qs files) ∧
          ∀ F xs i x, IsOcc f qs files F xs i x → name F.1 x.1 x.2 ∈ w.rows ∧
            (∀ c ∈ contexts L R colv (collocsOf f xs) i, c ∈ w.cols) ∧
            ∀ c, entry w (name F.1 x.1 x.2) c = if c ∈ contexts L R colv (collocsOf f xs) i then entry W (f.getType x.1) c else 0 := by
  obtain ⟨F, xs, i, x, c, ho, hc⟩ := hctx
  obtain ⟨d, hd⟩ := (mem_contexts c).1 hc
  obtain ⟨m, h1, hm, hrows, hent⟩ := C112_exact hR hq h hname horder ⟨F, xs, i, x, c, d, ho, hd⟩
  refine ⟨m, h1, ?_⟩
  have hbody : ∃ t, m.body = .sp t := by
    cases hb : m.body with
    | sp t => exact ⟨t, rfl⟩
    | dn t =>
      exfalso
      have : storedEntry m (name F.1 x.1 x.2) c = none := by
        unfold storedEntry
        rw [hb]
      exact (hent F xs i x ho c).1.1 this d hd
  obtain ⟨t, hb⟩ := hbody
  have hb' : (Cooc.toReal m).body = .sp (Cooc.spReal t) := by unfold Cooc.toReal; rw [hb]
  intro W ws hW hws hcols
  obtain ⟨w, _, w1, _, hw, _, wc, _, wrows, wcols, _, _, went, _⟩ :=
    Assoc.C35_weights (Cooc.valid_toReal hm hb) hW hb' hws (hcols.symm : (Cooc.toReal m).cols = W.cols) typeOf
  refine ⟨w, w1, hw, wc, wcols, by rw [wrows]; exact hrows, ?_⟩
  intro F xs i x ho
  generalize hctx : contexts L R colv (collocsOf f xs) i = ctx
  symm at hctx
  refine ⟨?_, ?_, ?_⟩
  · rw [wrows]
    refine hrows.mem_iff.2 ?_
    unfold occNames
    refine List.mem_flatMap.2 ⟨F, ho.file, List.mem_map.2 ⟨x, List.mem_filter.2 ⟨?_, ?_⟩, rfl⟩⟩
    · exact List.mem_flatten.2 ⟨xs, ho.seg, List.mem_of_getElem? ho.pos⟩
    · exact decide_eq_true ho.query
  · intro c hc
    rw [hctx, mem_contexts] at hc
    obtain ⟨d, hd⟩ := hc
    rw [wcols]
    cases hs : storedEntry m (name F.1 x.1 x.2) c with
    | none => exact absurd hd ((hent F xs i x ho c).1.1 hs d)
    | some e => exact (storedEntry_names hs).2
  · intro c
    rw [went, htype F xs i x ho]
    have hiff : entry (Cooc.toReal m) (name F.1 x.1 x.2) c ≠ 0 ↔ c ∈ ctx := by
      rw [entry_eq_stored hb', Cooc.storedEntry_toReal hb, hctx, mem_contexts]
      obtain ⟨g1, g2⟩ := hent F xs i x ho c
      cases hs : storedEntry m (name F.1 x.1 x.2) c with
      | none =>
        have := g1.1 hs
        simp only [Option.map_none, Option.getD_none, ne_eq, not_true_eq_false, false_iff, not_exists]
        exact this
      | some d =>
        have hk := (g2 d hs).1
        simp only [Option.map_some, Option.getD_some]
        exact ⟨fun _ => ⟨d, hk⟩, fun _ => by exact_mod_cast keptAt_ne hk⟩
    exact if_congr hiff rfl rfl

/-- **C192 (partial).** From the files to the vectors of tokens: retrieve the tokens, replace positions by the weights of
the type and the context, and combine the second-order vectors of the contexts.  The vector of an occurrence is the sum
over its contexts, each once, of the weight times the context's vector ('addition'), or that sum divided by the sum of the
weights ('weightedmean'), where the weights do not sum to 0.  Not covered: workers that get no file (`C05_false`), right
span 0 (`C11_false`), occurrences with equal names. -/
theorem C192_partial {f : Formatter ℓ μ κ} {L R : Nat} (hR : R ≠ 0) {colv : Vocab κ} {qs : List κ} (hq : qs.Nodup)
    {files : List (φ × List ℓ)} {s : State (φ × List ℓ) (Bool × Toks φ μ κ) (TokRes (Toks φ μ κ))}
    (h : RetrieveRun f L R colv qs files s) {name : φ → μ → Nat → κ} (hname : (occNames f name qs files).Nodup)
    {order : List κ → List κ} (horder : ∀ l, (order l).Perm l)
    (hctx : ∃ F xs i x c, IsOcc f qs files F xs i x ∧ c ∈ contexts L R colv (collocsOf f xs) i)
    {typeOf : κ → κ} (htype : ∀ F xs i x, IsOcc f qs files F xs i x → typeOf (name F.1 x.1 x.2) = f.getType x.1) :
    ∃ m, retrieve f name order files.length s = some (.ok m) ∧
      ∀ (W so : Mtx κ ℝ) (ws : Sp ℝ), Valid W → Valid so → W.body = .sp ws → IsCsr so → W.cols = m.cols →
        (∀ c, c ∈ so.rows ↔ c ∈ m.cols) →
        ∃ w u v, Assoc.computeTokenWeights typeOf (Cooc.toReal m) W = .ok w ∧
          Assoc.computeTokenVectors w so .addition .no = .ok u ∧ Assoc.computeTokenVectors w so .weightedmean .no = .ok v ∧
          u.cols = so.cols ∧ v.cols = so.cols ∧
          u.rows.Perm (occNames f name qs files) ∧ v.rows.Perm (occNames f name qs files) ∧
          ∀ F xs i x, IsOcc f qs files F xs i x → ∀ g ∈ so.cols, ∀ ctx, ctx = contexts L R colv (collocsOf f xs) i →
            entry u (name F.1 x.1 x.2) g = (ctx.map (fun c => entry W (f.getType x.1) c * entry so c g)).sum ∧
            ((ctx.map (fun c => entry W (f.getType x.1) c)).sum ≠ 0 →
              entry v (name F.1 x.1 x.2) g = (ctx.map (fun c => entry W (f.getType x.1) c * entry so c g)).sum /
                (ctx.map (fun c => entry W (f.getType x.1) c)).sum) := by
  obtain ⟨m, h1, hm⟩ := token_weights hR hq h hname horder hctx htype
  refine ⟨m, h1, ?_⟩
  intro W so ws hW hso hws hcsr hcols hset
  obtain ⟨w, w1, hw, wc, wcols, wrows, went⟩ := hm W ws hW hws hcols
  have hset' : ∀ c, c ∈ w.cols ↔ c ∈ so.rows := by
    intro c; rw [wcols, hset]
  obtain ⟨u, u1, _, _, u2, u3, u4⟩ := Assoc.C36_addition hw hso wc hcsr hset' (norm := .no) (by simp)
  obtain ⟨wt, hwt, _⟩ := id wc
  obtain ⟨v, v1, v2, v3, v4⟩ := Assoc.C62_signed hw hso hwt (by
    obtain ⟨r, hr, hf⟩ := hcsr
    exact ⟨r, hr, by rw [hf]; decide⟩) hset'
  refine ⟨w, u, v, w1, u1, v1, u3, v3, ?_, ?_, ?_⟩
  · rw [u2]; exact wrows
  · rw [v2]; exact wrows
  intro F xs i x ho g hg ctx hctx
  have hnd : ctx.Nodup := by rw [hctx]; exact List.nodup_dedup _
  obtain ⟨hmem, hsub, hweight⟩ := went F xs i x ho
  rw [← hctx] at hsub hweight
  have e1 : (w.cols.map (fun c => entry w (name F.1 x.1 x.2) c * entry so c g)).sum =
      (ctx.map (fun c => entry W (f.getType x.1) c * entry so c g)).sum := by
    rw [← sum_over hw.cols hnd hsub]
    congr 1
    refine List.map_congr_left (fun c _ => ?_)
    rw [hweight]
    split <;> simp
  have e2 : (w.cols.map (fun c => entry w (name F.1 x.1 x.2) c)).sum =
      (ctx.map (fun c => entry W (f.getType x.1) c)).sum := by
    rw [← sum_over hw.cols hnd hsub]
    congr 1
    exact List.map_congr_left (fun c _ => hweight c)
  refine ⟨?_, fun hne => ?_⟩
  · rw [u4 _ hmem g hg, ← e1]
    simp [Assoc.scaled, Assoc.raw]
  · exact (v4 _ hmem g hg _ _ e1.symm e2.symm).1 hne

/-- Non-vacuity of C192: the run of one file with one occurrence of the query and two contexts. -/
example : RetrieveRun fmt 2 2 Vocab.empty [1] [((), [1, 2, 3])] (endState tokAll) ∧
    (occNames fmt lineName [1] [((), [1, 2, 3])]).Nodup ∧
    (∃ F xs i x c, IsOcc fmt [1] [((), [1, 2, 3])] F xs i x ∧ c ∈ contexts 2 2 Vocab.empty (collocsOf fmt xs) i) ∧
    contexts 2 2 Vocab.empty (collocsOf fmt [(1, 1), (2, 2), (3, 3)]) 0 = [2, 3] := by
  refine ⟨run_all, by decide +kernel, ⟨((), [1, 2, 3]), [(1, 1), (2, 2), (3, 3)], 0, (1, 1), 3,
    ⟨by simp, ?_, rfl, by decide⟩, by decide +kernel⟩, by decide +kernel⟩
  decide +kernel

/-- Non-vacuity, continued: a weight matrix and a second-order matrix that fit the matrix of that run. -/
example : ∃ (m : Mtx Nat Int) (W so : Mtx Nat ℝ) (ws : Sp ℝ), retrieve fmt lineName id 1 (endState tokAll) = some (.ok m) ∧
    Valid W ∧ Valid so ∧ W.body = .sp ws ∧ IsCsr so ∧ W.cols = m.cols ∧ (∀ c, c ∈ so.rows ↔ c ∈ m.cols) ∧
    (([2, 3] : List Nat).map (fun c => entry W 1 c * entry so c 7)).sum = 2 * 5 + 3 * 11 := by
  refine ⟨⟨.sp ⟨.csr, 1, 2, [((0, 0), 1), ((0, 1), 2)]⟩, [101], [2, 3]⟩,
    ⟨.sp ⟨.csr, 1, 2, [((0, 0), 2), ((0, 1), 3)]⟩, [1], [2, 3]⟩,
    ⟨.sp ⟨.csr, 2, 1, [((0, 0), 11), ((1, 0), 5)]⟩, [3, 2], [7]⟩, _, rfl, ?_, ?_, rfl, ⟨_, rfl, rfl⟩, rfl, ?_, ?_⟩
  · exact ⟨rfl, rfl, by decide, by decide, fun s hs => by
      cases hs; exact ⟨show ([(0, 0), (0, 1)] : List (Nat × Nat)).Nodup by decide,
        show ∀ p ∈ ([(0, 0), (0, 1)] : List (Nat × Nat)), p.1 < 1 ∧ p.2 < 2 by decide⟩⟩
  · exact ⟨rfl, rfl, by decide, by decide, fun s hs => by
      cases hs; exact ⟨show ([(0, 0), (1, 0)] : List (Nat × Nat)).Nodup by decide,
        show ∀ p ∈ ([(0, 0), (1, 0)] : List (Nat × Nat)), p.1 < 2 ∧ p.2 < 1 by decide⟩⟩
  · intro c
    simp only [List.mem_cons, List.not_mem_nil, or_false]
    exact Or.comm
  · show (2 : ℝ) * 5 + (3 * 11 + 0) = 2 * 5 + 3 * 11
    norm_num

end Verif.Flow
