import Verif.Flow.PropsTokenVectors
import Verif.Assoc.PropsDistance

/-! # Property theorem C215 (distances between tokens follow from what stands around them) -/

set_option linter.unusedSectionVars false

namespace Verif.Flow
open Verif.Py Verif.Vocab Verif.Corpus Verif.Window Verif.Engine Verif.Matrix

variable {ℓ μ κ φ : Type} [LinearOrder κ]

/-! ### Specification -/

/-- The combined vector of an occurrence of the type `t` with the contexts `ctx`: the sum of weight times second-order value. -/
noncomputable def combined (W so : Mtx κ ℝ) (t : κ) (ctx : List κ) (g : κ) : ℝ := (ctx.map (fun c => entry W t c * entry so c g)).sum

/-- The scalar product over the columns. -/
noncomputable def dotOver (cols : List κ) (x y : κ → ℝ) : ℝ := (cols.map (fun g => x g * y g)).sum

open Classical in
/-- One minus the cosine; 1 if one of the vectors is zero. -/
noncomputable def cosDistance (cols : List κ) (x y : κ → ℝ) : ℝ :=
  if dotOver cols x x = 0 ∨ dotOver cols y y = 0 then 1 else 1 - dotOver cols x y / (Real.sqrt (dotOver cols x x) * Real.sqrt (dotOver cols y y))

/-! ### Proof -/

theorem dotOver_self_nonneg (cols : List κ) (x : κ → ℝ) : 0 ≤ dotOver cols x x :=
  List.sum_nonneg (by simp only [List.mem_map, forall_exists_index, and_imp]; rintro _ g _ rfl; exact mul_self_nonneg _)

theorem dotOver_scale (cols : List κ) (x y : κ → ℝ) (a b : ℝ) : dotOver cols (fun g => a * x g) (fun g => b * y g) = a * b * dotOver cols x y := by
  unfold dotOver
  rw [← List.sum_map_mul_left]
  congr 1
  exact List.map_congr_left (fun g _ => by ring)

theorem dotOver_congr {cols : List κ} {x x' y y' : κ → ℝ} (h : ∀ g ∈ cols, x g = x' g) (h' : ∀ g ∈ cols, y g = y' g) :
    dotOver cols x y = dotOver cols x' y' := by
  unfold dotOver
  congr 1
  exact List.map_congr_left (fun g hg => by rw [h g hg, h' g hg])

/-- Positive factors do not change the cosine. -/
theorem cosDistance_scale (cols : List κ) (x y : κ → ℝ) {a b : ℝ} (ha : 0 < a) (hb : 0 < b) :
    cosDistance cols (fun g => a * x g) (fun g => b * y g) = cosDistance cols x y := by
  unfold cosDistance
  simp only [dotOver_scale]
  have e1 : a * a * dotOver cols x x = 0 ↔ dotOver cols x x = 0 := by simp [ha.ne']
  have e2 : b * b * dotOver cols y y = 0 ↔ dotOver cols y y = 0 := by simp [hb.ne']
  by_cases hz : dotOver cols x x = 0 ∨ dotOver cols y y = 0
  · rw [if_pos hz, if_pos (by rw [e1, e2]; exact hz)]
  · rw [if_neg hz, if_neg (by rw [e1, e2]; exact hz)]
    rw [Real.sqrt_mul (mul_self_nonneg a), Real.sqrt_mul (mul_self_nonneg b), Real.sqrt_mul_self ha.le, Real.sqrt_mul_self hb.le]
    congr 1
    rw [show a * Real.sqrt (dotOver cols x x) * (b * Real.sqrt (dotOver cols y y)) =
      a * b * (Real.sqrt (dotOver cols x x) * Real.sqrt (dotOver cols y y)) by ring]
    exact mul_div_mul_left _ _ (mul_pos ha hb).ne'

theorem cosDistance_congr {cols : List κ} {x x' y y' : κ → ℝ} (h : ∀ g ∈ cols, x g = x' g) (h' : ∀ g ∈ cols, y g = y' g) :
    cosDistance cols x y = cosDistance cols x' y' := by
  unfold cosDistance
  rw [dotOver_congr h h, dotOver_congr h' h', dotOver_congr h h']

/-- A scaled vector is the vector times a positive number. -/
theorem scaled_factor (norm : Assoc.Norm) (v : List ℝ) : ∃ k : ℝ, 0 < k ∧ ∀ x, Assoc.scaled norm v x = k * x := by
  unfold Assoc.scaled
  by_cases h : norm = .no ∨ Assoc.vecNorm norm v = 0
  · exact ⟨1, one_pos, fun x => by rw [if_pos h, one_mul]⟩
  · refine ⟨(Assoc.vecNorm norm v)⁻¹, inv_pos.2 (lt_of_le_of_ne ?_ (fun e => h (.inr e.symm))), fun x => by rw [if_neg h, div_eq_inv_mul]⟩
    unfold Assoc.vecNorm
    split
    · exact Real.sqrt_nonneg _
    · exact List.sum_nonneg (by simp only [List.mem_map, forall_exists_index, and_imp]; rintro _ g _ rfl; exact abs_nonneg _)

theorem contexts_perm {L R : Nat} {colv : Vocab κ} {cs cs' : List κ} {i j : Nat}
    (h : ∀ c, c ∈ contexts L R colv cs i ↔ c ∈ contexts L R colv cs' j) : (contexts L R colv cs i).Perm (contexts L R colv cs' j) :=
  (List.perm_ext_iff_of_nodup (List.nodup_dedup _) (List.nodup_dedup _)).2 h

/-- **C215 (partial).** Retrieve the tokens, weight their contexts, combine the second-order vectors (with any norm) and compute the
distances.  The cosine distance of two occurrences is that of their combined contexts, whatever the norm.  Occurrences of one type with the
same contexts, in whatever order, at whatever distance and however often each, have the same vector: the Manhattan and Euclidean distances are
0, and so is the cosine distance unless the vector is zero, in which case it is 1. -/
theorem C215_partial {f : Formatter ℓ μ κ} {L R : Nat} (hR : R ≠ 0) {colv : Vocab κ} {qs : List κ} (hq : qs.Nodup)
    {files : List (φ × List ℓ)} {s : State (φ × List ℓ) (Bool × Toks φ μ κ) (TokRes (Toks φ μ κ))}
    (h : RetrieveRun f L R colv qs files s) {name : φ → μ → Nat → κ} (hname : (occNames f name qs files).Nodup)
    {order : List κ → List κ} (horder : ∀ l, (order l).Perm l)
    (hctx : ∃ F xs i x c, IsOcc f qs files F xs i x ∧ c ∈ contexts L R colv (collocsOf f xs) i)
    {typeOf : κ → κ} (htype : ∀ F xs i x, IsOcc f qs files F xs i x → typeOf (name F.1 x.1 x.2) = f.getType x.1) :
    ∃ m, retrieve f name order files.length s = some (.ok m) ∧
      ∀ (W so : Mtx κ ℝ) (ws : Sp ℝ), Valid W → Valid so → W.body = .sp ws → IsCsr so → W.cols = m.cols →
        (∀ c, c ∈ so.rows ↔ c ∈ m.cols) → so.cols ≠ [] →
        ∃ w, Assoc.computeTokenWeights typeOf (Cooc.toReal m) W = .ok w ∧
          ∀ norm, norm ≠ .other →
            ∃ v d, Assoc.computeTokenVectors w so .addition norm = .ok v ∧ Assoc.computeDistance v = .ok d ∧
              d.rows.Perm (occNames f name qs files) ∧ d.cols = d.rows ∧
              ∀ F xs i x G ys j y, IsOcc f qs files F xs i x → IsOcc f qs files G ys j y →
                ∀ a b, a = name F.1 x.1 x.2 → b = name G.1 y.1 y.2 →
                ∀ ca cb, ca = contexts L R colv (collocsOf f xs) i → cb = contexts L R colv (collocsOf f ys) j →
                  entry d a a = 0 ∧
                  (a ≠ b → entry d a b = cosDistance so.cols (combined W so (f.getType x.1) ca) (combined W so (f.getType y.1) cb)) ∧
                  (f.getType x.1 = f.getType y.1 → (∀ c, c ∈ ca ↔ c ∈ cb) →
                    (∀ g, entry v a g = entry v b g) ∧
                    (∀ metric ∈ ["cityblock", "manhattan", "l1", "euclidean", "l2"], ∃ e, Assoc.computeDistance v 0 metric = .ok e ∧ entry e a b = 0) ∧
                    ((∃ g ∈ so.cols, combined W so (f.getType x.1) ca g ≠ 0) → entry d a b = 0) ∧
                    ((∀ g ∈ so.cols, combined W so (f.getType x.1) ca g = 0) → a ≠ b → entry d a b = 1)) := by
  obtain ⟨F0, xs0, i0, x0, c0, ho0, hc0⟩ := id hctx
  obtain ⟨m, h1, hm⟩ := token_weights hR hq h hname horder hctx htype
  refine ⟨m, h1, ?_⟩
  intro W so ws hW hso hws hcsr hcols hset hne
  obtain ⟨w, w1, hw, wc, wcols, wrows, went⟩ := hm W ws hW hws hcols
  have hset' : ∀ c, c ∈ w.cols ↔ c ∈ so.rows := by
    intro c; rw [wcols, hset]
  refine ⟨w, w1, fun norm hno => ?_⟩
  obtain ⟨v, v1, hv, _, v2, v3, v4⟩ := Assoc.C36_addition hw hso wc hcsr hset' hno
  have hvr : v.rows ≠ [] := by
    rw [v2]
    exact List.ne_nil_of_mem (went F0 xs0 i0 x0 ho0).1
  have hvc : v.cols ≠ [] := by rw [v3]; exact hne
  obtain ⟨d, d1, d2, d3, d4, d5, d6⟩ := Assoc.C122_cosine hv hvr hvc
  refine ⟨v, d, v1, d1, by rw [d2, v2]; exact wrows, by rw [d3, d2], ?_⟩
  -- every vector is a positive multiple of the combined one
  have hfac : ∀ F xs i x, IsOcc f qs files F xs i x → ∀ ctx, ctx = contexts L R colv (collocsOf f xs) i →
      ∃ k : ℝ, 0 < k ∧ ∀ g ∈ so.cols, entry v (name F.1 x.1 x.2) g = k * combined W so (f.getType x.1) ctx g := by
    intro F xs i x ho ctx hc
    obtain ⟨hmem, hsub, hweight⟩ := went F xs i x ho
    rw [← hc] at hsub hweight
    obtain ⟨k, k1, k2⟩ := scaled_factor norm (so.cols.map (Assoc.raw w so (name F.1 x.1 x.2)))
    refine ⟨k, k1, fun g hg => ?_⟩
    rw [v4 _ hmem g hg, k2]
    congr 1
    unfold Assoc.raw combined
    rw [← sum_over hw.cols (by rw [hc]; exact List.nodup_dedup _) hsub]
    congr 1
    refine List.map_congr_left (fun c _ => ?_)
    rw [hweight]
    split <;> simp
  intro F xs i x G ys j y hox hoy a b ha hb ca cb hca hcb
  have hma : a ∈ v.rows := by rw [v2, ha]; exact (went F xs i x hox).1
  have hmb : b ∈ v.rows := by rw [v2, hb]; exact (went G ys j y hoy).1
  have hcos : a ≠ b → entry d a b = cosDistance so.cols (combined W so (f.getType x.1) ca) (combined W so (f.getType y.1) cb) := by
    intro hab
    obtain ⟨p, p1, p2⟩ := hfac F xs i x hox ca hca
    obtain ⟨q, q1, q2⟩ := hfac G ys j y hoy cb hcb
    rw [← cosDistance_scale _ _ _ p1 q1, ← cosDistance_congr (x := entry v a) (y := entry v b) (by rw [ha]; exact p2) (by rw [hb]; exact q2)]
    obtain ⟨g1, g2⟩ := d6 a hma b hmb hab
    have n1 : ∀ a b, Assoc.namedDot v a b = dotOver so.cols (entry v a) (entry v b) := by
      intro a b; unfold Assoc.namedDot dotOver; rw [v3]
    simp only [n1] at g1 g2
    unfold cosDistance
    by_cases hz : dotOver so.cols (entry v a) (entry v a) = 0 ∨ dotOver so.cols (entry v b) (entry v b) = 0
    · rw [if_pos hz]; exact g1 hz
    · rw [if_neg hz]
      rw [not_or] at hz
      exact g2 hz.1 hz.2
  refine ⟨d4 a hma, hcos, fun ht hcc => ?_⟩
  have hcomb : combined W so (f.getType y.1) cb = combined W so (f.getType x.1) ca := by
    funext g
    unfold combined
    rw [← ht]
    have : ca.Perm cb := by
      rw [hca, hcb]
      refine contexts_perm ?_
      rw [← hca, ← hcb]; exact hcc
    exact ((this.map _).sum_eq).symm
  -- the same vector
  have hsame : ∀ g, entry v a g = entry v b g := by
    intro g
    by_cases hg : g ∈ so.cols
    · obtain ⟨mx, sx, wx⟩ := went F xs i x hox
      obtain ⟨my, sy, wy⟩ := went G ys j y hoy
      have hraw : ∀ g, Assoc.raw w so b g = Assoc.raw w so a g := by
        intro g
        unfold Assoc.raw
        congr 1
        refine List.map_congr_left (fun c _ => ?_)
        rw [ha, hb, wx, wy, ← hca, ← hcb, ← ht]
        simp only [hcc c]
      rw [v4 a (by rw [ha]; exact mx) g hg, v4 b (by rw [hb]; exact my) g hg, hraw g,
        show Assoc.raw w so b = Assoc.raw w so a from funext hraw]
    · rw [entry_col_absent a (by rw [v3]; exact hg), entry_col_absent b (by rw [v3]; exact hg)]
  refine ⟨hsame, ?_, ?_, ?_⟩
  · intro metric hmet
    obtain ⟨e, e1, e2, e3, e4⟩ := Assoc.C122_metric hv hvr hvc hmet
    exact ⟨e, e1, (e4.zero_iff a hma b hmb).2 (fun c _ => hsame c)⟩
  · rintro ⟨g, hg, hgne⟩
    by_cases hab : a = b
    · rw [← hab]; exact d4 a hma
    · rw [hcos hab, hcomb]
      have hpos : dotOver so.cols (combined W so (f.getType x.1) ca) (combined W so (f.getType x.1) ca) ≠ 0 := by
        intro h0
        unfold dotOver at h0
        have hle := List.single_le_sum (l := so.cols.map (fun g => combined W so (f.getType x.1) ca g * combined W so (f.getType x.1) ca g))
          (by simp only [List.mem_map, forall_exists_index, and_imp]; rintro _ g _ rfl; exact mul_self_nonneg _) _ (List.mem_map.2 ⟨g, hg, rfl⟩)
        rw [h0] at hle
        exact hgne (mul_self_eq_zero.1 (le_antisymm hle (mul_self_nonneg _)))
      unfold cosDistance
      rw [if_neg (by simp [hpos]), Real.mul_self_sqrt (dotOver_self_nonneg _ _), div_self hpos, sub_self]
  · intro h0 hab
    rw [hcos hab]
    unfold cosDistance
    refine if_pos (.inl ?_)
    unfold dotOver
    refine List.sum_eq_zero ?_
    simp only [List.mem_map, forall_exists_index, and_imp]
    rintro _ g hg rfl
    rw [h0 g hg, mul_zero]

/-! ### Two occurrences with the same contexts, mirrored -/

/-- Two segments, 3 1 2 and 2 1 3. -/
def mirrored : List (Unit × List Nat) := [((), [3, 1, 2, 10, 2, 1, 3])]

/-- The token 1 of the first segment. -/
def tokFirst : Token (Unit × Nat) := ⟨((), 1), 2, [(((), 3), 1)], [(((), 2), 3)]⟩

/-- The token 1 of the second segment. -/
def tokSecond : Token (Unit × Nat) := ⟨((), 1), 6, [(((), 2), 5)], [(((), 3), 7)]⟩

/-- What the worker ends with. -/
def mirroredState : State (Unit × List Nat) (Bool × Toks Unit Nat Nat) (TokRes (Toks Unit Nat Nat)) :=
  ⟨[], [], [.done (false, [(1, [tokFirst, tokSecond])])], [.toks [(1, [tokFirst, tokSecond])]]⟩

theorem run_mirrored : RetrieveRun fmt 1 1 Vocab.empty [1] mirrored mirroredState := by
  refine ⟨1, oneRun, by intro i; simp [oneRun], rfl, ⟨rfl, ?_⟩, rfl, ?_⟩
  · intro w hw
    simp only [mirroredState, List.mem_singleton] at hw
    exact Or.inl ⟨_, hw⟩
  · intro i hi
    have : i = 0 := by omega
    subst this
    decide +kernel

theorem occ_first : IsOcc fmt [1] mirrored ((), [3, 1, 2, 10, 2, 1, 3]) [(3, 1), (1, 2), (2, 3)] 1 (1, 2) :=
  ⟨by simp [mirrored], by decide +kernel, rfl, by decide⟩

theorem occ_second : IsOcc fmt [1] mirrored ((), [3, 1, 2, 10, 2, 1, 3]) [(2, 5), (1, 6), (3, 7)] 1 (1, 6) :=
  ⟨by simp [mirrored], by decide +kernel, rfl, by decide⟩

theorem mirrored_contexts (c : Nat) : c ∈ contexts 1 1 Vocab.empty (collocsOf fmt [(3, 1), (1, 2), (2, 3)]) 1 ↔
    c ∈ contexts 1 1 Vocab.empty (collocsOf fmt [(2, 5), (1, 6), (3, 7)]) 1 := by
  have h1 : contexts 1 1 Vocab.empty (collocsOf fmt [(3, 1), (1, 2), (2, 3)]) 1 = [3, 2] := by decide +kernel
  have h2 : contexts 1 1 Vocab.empty (collocsOf fmt [(2, 5), (1, 6), (3, 7)]) 1 = [2, 3] := by decide +kernel
  rw [h1, h2]
  simp only [List.mem_cons, List.not_mem_nil, or_false]
  exact Or.comm

/-- The matrix of positions. -/
def mirroredM : Mtx Nat Int := ⟨.sp ⟨.csr, 2, 2, [((0, 0), 1), ((0, 1), -1), ((1, 0), -1), ((1, 1), 1)]⟩, [201, 601], [2, 3]⟩

/-- Weights of the type 1. -/
noncomputable def weights1 (l : List ((Nat × Nat) × ℝ)) : Mtx Nat ℝ := ⟨.sp ⟨.csr, 1, 2, l⟩, [1], [2, 3]⟩

/-- Second-order vectors of 3 and 2. -/
noncomputable def second1 : Mtx Nat ℝ := ⟨.sp ⟨.csr, 2, 1, [((0, 0), 11), ((1, 0), 5)]⟩, [3, 2], [7]⟩

theorem second1_valid : Valid second1 :=
  ⟨rfl, rfl, by decide, by decide, fun s hs => by
    cases hs; exact ⟨show ([(0, 0), (1, 0)] : List (Nat × Nat)).Nodup by decide,
      show ∀ p ∈ ([(0, 0), (1, 0)] : List (Nat × Nat)), p.1 < 2 ∧ p.2 < 1 by decide⟩⟩

theorem mirrored_types : ∀ F xs i x, IsOcc fmt [1] mirrored F xs i x → (fun _ => 1) (lineName F.1 x.1 x.2) = fmt.getType x.1 :=
  fun _ _ _ _ h => (List.mem_singleton.1 h.query).symm

/-- C215 for this run. -/
theorem mirrored_distance (l : List ((Nat × Nat) × ℝ)) (hW : Valid (weights1 l)) :
    ∃ w v d, Assoc.computeTokenWeights (fun _ => 1) (Cooc.toReal mirroredM) (weights1 l) = .ok w ∧
      Assoc.computeTokenVectors w second1 = .ok v ∧ Assoc.computeDistance v = .ok d ∧
      ((∃ g ∈ [7], combined (weights1 l) second1 1 [3, 2] g ≠ 0) → entry d 201 601 = 0) ∧
      ((∀ g ∈ [7], combined (weights1 l) second1 1 [3, 2] g = 0) → entry d 201 601 = 1) := by
  obtain ⟨m, m1, m2⟩ := C215_partial (by decide) (List.nodup_singleton 1) run_mirrored (name := lineName) (by decide +kernel) (order := id)
    (fun l => List.Perm.refl _) ⟨_, _, _, _, 2, occ_first, by decide +kernel⟩ (typeOf := fun _ => 1) mirrored_types
  have hm : m = mirroredM := by
    have : retrieve fmt lineName id mirrored.length mirroredState = some (.ok mirroredM) := rfl
    rw [this] at m1
    cases m1
    rfl
  subst hm
  obtain ⟨w, w1, w2⟩ := m2 (weights1 l) second1 _ hW second1_valid rfl ⟨_, rfl, rfl⟩ rfl
    (by intro c; simp only [second1, mirroredM, List.mem_cons, List.not_mem_nil, or_false]; exact Or.comm) (by simp [second1])
  obtain ⟨v, d, v1, d1, _, _, d4⟩ := w2 .l1 (by simp)
  obtain ⟨_, _, g⟩ := d4 _ _ _ _ _ _ _ _ occ_first occ_second _ _ rfl rfl _ _ rfl rfl
  obtain ⟨_, _, g3, g4⟩ := g rfl mirrored_contexts
  exact ⟨w, v, d, w1, v1, d1, g3, fun h0 => g4 h0 (by decide)⟩

/-- Non-vacuity of C215: with weights, the two occurrences of 1, between 3 and 2 and between 2 and 3, have distance 0. -/
example : ∃ w v d, Assoc.computeTokenWeights (fun _ => 1) (Cooc.toReal mirroredM) (weights1 [((0, 0), 2), ((0, 1), 3)]) = .ok w ∧
    Assoc.computeTokenVectors w second1 = .ok v ∧ Assoc.computeDistance v = .ok d ∧ entry d 201 601 = 0 := by
  obtain ⟨w, v, d, h1, h2, h3, h4, _⟩ := mirrored_distance [((0, 0), 2), ((0, 1), 3)]
    ⟨rfl, rfl, by decide, by decide, fun s hs => by
      cases hs; exact ⟨show ([(0, 0), (0, 1)] : List (Nat × Nat)).Nodup by decide,
        show ∀ p ∈ ([(0, 0), (0, 1)] : List (Nat × Nat)), p.1 < 1 ∧ p.2 < 2 by decide⟩⟩
  refine ⟨w, v, d, h1, h2, h3, h4 ⟨7, by simp, ?_⟩⟩
  show (3 : ℝ) * 11 + (2 * 5 + 0) ≠ 0
  norm_num

/-- **C215 is false** for occurrences whose contexts have no weight: a complete run without deaths retrieves two occurrences of the type 1, both
with the contexts 2 and 3, whose token vectors are equal and whose distance is 1, as if they had nothing in common. -/
theorem C215_false : RetrieveRun fmt 1 1 Vocab.empty [1] mirrored mirroredState ∧
    retrieve fmt lineName id mirrored.length mirroredState = some (.ok mirroredM) ∧
    (∃ F xs i x G ys j y, IsOcc fmt [1] mirrored F xs i x ∧ IsOcc fmt [1] mirrored G ys j y ∧ lineName F.1 x.1 x.2 = 201 ∧
      lineName G.1 y.1 y.2 = 601 ∧ ∀ c, c ∈ contexts 1 1 Vocab.empty (collocsOf fmt xs) i ↔ c ∈ contexts 1 1 Vocab.empty (collocsOf fmt ys) j) ∧
    ∃ W so w v d, Valid W ∧ Valid so ∧ Assoc.computeTokenWeights (fun _ => 1) (Cooc.toReal mirroredM) W = .ok w ∧
      Assoc.computeTokenVectors w so = .ok v ∧ Assoc.computeDistance v = .ok d ∧ entry d 201 601 = 1 := by
  have hW : Valid (weights1 []) :=
    ⟨rfl, rfl, by decide, by decide, fun s hs => by cases hs; exact ⟨List.nodup_nil, by intro p hp; cases hp⟩⟩
  obtain ⟨w, v, d, h1, h2, h3, _, h4⟩ := mirrored_distance [] hW
  refine ⟨run_mirrored, rfl, ⟨_, _, _, _, _, _, _, _, occ_first, occ_second, rfl, rfl, mirrored_contexts⟩, weights1 [], second1, w, v, d, hW,
    second1_valid, h1, h2, h3, h4 ?_⟩
  intro g hg
  rw [List.mem_singleton.1 hg]
  show (0 : ℝ) * 11 + (0 * 5 + 0) = 0
  norm_num

end Verif.Flow
