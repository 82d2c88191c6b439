import Verif.Cbc.Condensed
import Mathlib.Data.List.Nodup
import Mathlib.Data.List.Range
import Mathlib.Algebra.Order.Field.Basic
import Mathlib.Algebra.Order.BigOperators.Group.List
import Mathlib.Data.Rat.Defs
import Mathlib.Algebra.Order.Field.Rat
import Mathlib.Tactic.Ring
import Mathlib.Tactic.Linarith
import Mathlib.Tactic.FieldSimp

/-!
# C47: condensed indices and average similarities
-/

set_option linter.unusedSectionVars false

namespace Verif.Cbc

/-! ## Specification: the condensed form of a matrix -/

/-- SciPy's condensed form of the `n × n` matrix `S`: the entries above the diagonal, row by row. -/
def Condensed {α : Type} (n : Nat) (S : Nat → Nat → α) : List α :=
  (List.range n).flatMap (fun i => (List.range (n - 1 - i)).map (fun d => S i (i + 1 + d)))

/-! ## Lemmas -/

/-- Position of the first entry of row `i`. -/
def rowStart (n i : Nat) : Nat := ((List.range i).map (fun r => n - 1 - r)).sum

theorem rowStart_succ (n i : Nat) : rowStart n (i + 1) = rowStart n i + (n - 1 - i) := by
  simp [rowStart, List.range_succ]

theorem rowStart_twice (n i : Nat) (h : i ≤ n) :
    (2 * rowStart n i : Int) = 2 * n * i - i * (i + 1) := by
  induction i with
  | zero => simp [rowStart]
  | succ i ih =>
    have ih' := ih (by omega)
    rw [rowStart_succ]
    have : ((n - 1 - i : Nat) : Int) = n - 1 - i := by omega
    push_cast [this]
    rw [mul_add, ih']
    ring

theorem condensed_length {α : Type} (n : Nat) (S : Nat → Nat → α) :
    (Condensed n S).length = n * (n - 1) / 2 := by
  have h1 : (Condensed n S).length = rowStart n n := by
    simp [Condensed, rowStart, List.length_flatMap]
  have h2 := rowStart_twice n n le_rfl
  rw [h1]
  rcases n with _ | n
  · simp [rowStart]
  · have h3 : 2 * rowStart (n + 1) (n + 1) = (n + 1) * n := by
      zify
      push_cast at h2 ⊢
      rw [h2]; ring
    have : (n + 1) * (n + 1 - 1) = 2 * rowStart (n + 1) (n + 1) := by
      rw [h3]; simp
    rw [this]
    omega

theorem condensed_get {α : Type} (n : Nat) (S : Nat → Nat → α) (i d : Nat) (hi : i < n)
    (hd : d < n - 1 - i) : (Condensed n S)[rowStart n i + d]? = some (S i (i + 1 + d)) := by
  have hsplit : List.range n = List.range i ++ (List.range (n - i)).map (fun x => i + x) := by
    rw [← List.range_add]; congr 1; omega
  unfold Condensed
  rw [hsplit, List.flatMap_append]
  have hlen : ((List.range i).flatMap
      (fun i => (List.range (n - 1 - i)).map (fun d => S i (i + 1 + d)))).length = rowStart n i := by
    simp [rowStart, List.length_flatMap]
  rw [List.getElem?_append_right (by rw [hlen]; omega), hlen, Nat.add_sub_cancel_left]
  obtain ⟨m, hm⟩ : ∃ m, n - i = m + 1 := ⟨n - i - 1, by omega⟩
  rw [hm, List.range_succ_eq_map, List.map_cons, List.flatMap_cons, Nat.add_zero,
    List.getElem?_append_left (by simpa using hd)]
  simp [hd]

theorem even_half (j : Int) : (j * (j + 1) / 2) * 2 = j * (j + 1) :=
  Int.ediv_mul_cancel (Int.even_mul_succ_self j).two_dvd

/-- The computed position, for ids in increasing order. -/
theorem squareToCondensed_lt {i j n : Nat} (h : i < j) (hj : j < n) :
    squareToCondensed i j n = .ok ((rowStart n i + (j - 1 - i) : Nat) : Int) := by
  unfold squareToCondensed
  rw [if_neg (by omega), if_pos h]
  simp only [Except.ok.injEq]
  have h1 := rowStart_twice n i (by omega)
  have h2 := even_half (i : Int)
  have h3 : ((j - 1 - i : Nat) : Int) = j - 1 - i := by omega
  push_cast [h3]
  have h4 : 2 * (n : Int) * i = 2 * (n * i) := by ring
  rw [h4] at h1
  generalize (n : Int) * i = q at h1 ⊢
  generalize (i : Int) * (i + 1) = w at h1 h2 ⊢
  omega

theorem squareToCondensed_symm (i j n : Nat) :
    squareToCondensed i j n = squareToCondensed j i n := by
  unfold squareToCondensed
  rcases Nat.lt_trichotomy i j with h | h | h
  · have h1 : ¬ i = j := by omega
    have h2 : ¬ j = i := by omega
    have h3 : ¬ j < i := by omega
    simp only [h, h1, h2, h3, if_true, if_false]
  · subst h; rfl
  · have h1 : ¬ i = j := by omega
    have h2 : ¬ j = i := by omega
    have h3 : ¬ i < j := by omega
    simp only [h, h1, h2, h3, if_true, if_false]

/-- Two symmetric indices select the entry of the square matrix. -/
theorem getPy_condensed {α : Type} (n : Nat) (S : Nat → Nat → α) {i j : Nat} (h : i < j) (hj : j < n) :
    ∃ k, squareToCondensed i j n = .ok k ∧ getPy (Condensed n S) k = .ok (S i j) := by
  refine ⟨_, squareToCondensed_lt h hj, ?_⟩
  have hg := condensed_get n S i (j - 1 - i) (by omega) (by omega)
  rw [show i + 1 + (j - 1 - i) = j by omega] at hg
  unfold getPy
  simp only [show ¬ ((rowStart n i + (j - 1 - i) : Nat) : Int) < 0 by omega, if_false,
    Int.toNat_natCast, hg]

/-- `average_similarity` recovers the number of rows from the length. -/
theorem sqrt_condensed (n : Nat) (hn : 1 ≤ n) : Nat.sqrt (n * (n - 1) / 2 * 2) + 1 = n := by
  obtain ⟨m, rfl⟩ : ∃ m, n = m + 1 := ⟨n - 1, by omega⟩
  have he : (m + 1) * (m + 1 - 1) / 2 * 2 = (m + 1) * m := by
    rw [Nat.add_sub_cancel]
    exact Nat.div_mul_cancel (by rw [Nat.mul_comm]; exact (Nat.even_mul_succ_self m).two_dvd)
  rw [he]
  have : m = Nat.sqrt ((m + 1) * m) := Nat.eq_sqrt.2 ⟨by nlinarith, by nlinarith⟩
  rw [← this]

theorem condensed_pairs_nodup (n : Nat) : (Condensed n (fun i j => (i, j))).Nodup := by
  unfold Condensed
  rw [List.nodup_flatMap]
  refine ⟨fun i _ => ?_, ?_⟩
  · refine (List.nodup_range).map ?_
    intro a b h
    have := congrArg Prod.snd h
    simp only at this
    omega
  · refine List.Pairwise.imp ?_ (List.nodup_range)
    intro a b hab
    simp only [Function.onFun]
    intro p h1 h2
    obtain ⟨d, _, rfl⟩ := List.mem_map.1 h1
    obtain ⟨e, _, h⟩ := List.mem_map.1 h2
    exact hab (congrArg Prod.fst h).symm

/-! ## C47, first part: the index -/

/-- C47: `square_to_condensed` is symmetric, rejects the diagonal, stays within the condensed array, finds
the entry SciPy stores for the pair, and every position of the array belongs to exactly one pair `i < j`. -/
theorem C47_index (n : Nat) :
    (∀ i, squareToCondensed i i n = .error .assertion) ∧
    (∀ i j, squareToCondensed i j n = squareToCondensed j i n) ∧
    (∀ i j, i < j → j < n → ∃ k : Nat, k < n * (n - 1) / 2 ∧ squareToCondensed i j n = .ok k ∧
      ∀ (α : Type) (S : Nat → Nat → α), (Condensed n S)[k]? = some (S i j)) ∧
    (∀ k, k < n * (n - 1) / 2 → ∃! p : Nat × Nat, p.1 < p.2 ∧ p.2 < n ∧
      squareToCondensed p.1 p.2 n = .ok (k : Int)) := by
  have hthird : ∀ i j, i < j → j < n → ∃ k : Nat, k < n * (n - 1) / 2 ∧
      squareToCondensed i j n = .ok k ∧
      ∀ (α : Type) (S : Nat → Nat → α), (Condensed n S)[k]? = some (S i j) := by
    intro i j h hj
    have hg : ∀ (α : Type) (S : Nat → Nat → α),
        (Condensed n S)[rowStart n i + (j - 1 - i)]? = some (S i j) := by
      intro α S
      have hg := condensed_get n S i (j - 1 - i) (by omega) (by omega)
      rwa [show i + 1 + (j - 1 - i) = j by omega] at hg
    refine ⟨_, ?_, squareToCondensed_lt h hj, hg⟩
    have := hg Nat (fun _ _ => 0)
    obtain ⟨hlt, _⟩ := List.getElem?_eq_some_iff.1 this
    rwa [condensed_length] at hlt
  refine ⟨fun i => by simp [squareToCondensed], fun i j => squareToCondensed_symm i j n, hthird, ?_⟩
  intro k hk
  have hk' : k < (Condensed n (fun i j => (i, j))).length := by rwa [condensed_length]
  obtain ⟨p, hp⟩ : ∃ p, (Condensed n (fun i j => (i, j)))[k] = p := ⟨_, rfl⟩
  have hmem : p ∈ Condensed n (fun i j => (i, j)) := hp ▸ List.getElem_mem hk'
  have hpk : (Condensed n (fun i j => (i, j)))[k]? = some p := List.getElem?_eq_some_iff.2 ⟨hk', hp⟩
  obtain ⟨i, hi, hm⟩ := List.mem_flatMap.1 hmem
  obtain ⟨d, hd, rfl⟩ := List.mem_map.1 hm
  rw [List.mem_range] at hi hd
  have key : ∀ i j, i < j → j < n → squareToCondensed i j n = .ok (k : Int) →
      (Condensed n (fun i j => (i, j)))[k]? = some (i, j) := by
    intro i j h hj hs
    obtain ⟨k', _, hs', hg⟩ := hthird i j h hj
    rw [hs] at hs'
    have : k = k' := by
      have := Except.ok.inj hs'
      omega
    subst this
    exact hg _ _
  refine ⟨(i, i + 1 + d), ⟨by simp only; omega, by simp only; omega, ?_⟩, ?_⟩
  · obtain ⟨k', hk'', hs, hg⟩ := hthird i (i + 1 + d) (by omega) (by omega)
    have h1 := hg _ (fun i j => (i, j))
    have : k' = k := by
      rw [← condensed_length n (fun i j => (i, j))] at hk''
      exact (List.Nodup.getElem_inj_iff (condensed_pairs_nodup n) (hi := hk'') (hj := hk')).1
        (by rw [hp]; exact (List.getElem?_eq_some_iff.1 h1).2)
    simp only
    rw [hs, this]
  · intro q ⟨h1, h2, h3⟩
    have := key q.1 q.2 h1 h2 h3
    rw [hpk] at this
    exact (Option.some.inj this).symm

example : squareToCondensed 3 1 5 = .ok 5 ∧ squareToCondensed 1 3 5 = .ok 5 ∧
    (Condensed 5 (fun i j => (i, j)))[5]? = some (1, 3) := by decide

/-! ## C47, second part: average similarity -/

variable {K : Type} [Field K]

/-- Specification: the sum of `S i j` over all ordered pairs of different ids of the cluster. -/
def orderedSum (S : Nat → Nat → K) (idx : List Nat) : K :=
  (idx.map (fun i => (idx.map (fun j => if i = j then 0 else S i j)).sum)).sum

theorem foldlM_addSim (n : Nat) (S : Nat → Nat → K) (hS : ∀ i j, S i j = S j i) (ps : List (Nat × Nat))
    (hps : ∀ p ∈ ps, p.1 ≠ p.2 ∧ p.1 < n ∧ p.2 < n) (acc : K) :
    ps.foldlM (addSim (Condensed n S) n) acc
      = .ok (acc + (ps.map (fun p => S p.1 p.2)).sum) := by
  induction ps generalizing acc with
  | nil => simp; rfl
  | cons p ps ih =>
    have hp := hps p (by simp)
    have hstep : addSim (Condensed n S) n acc p = .ok (acc + S p.1 p.2) := by
      unfold addSim
      rcases Nat.lt_or_gt_of_ne hp.1 with h | h
      · obtain ⟨k, h1, h2⟩ := getPy_condensed n S h hp.2.2
        rw [h1]
        simp only [bind, Except.bind, h2]
        rfl
      · obtain ⟨k, h1, h2⟩ := getPy_condensed n S h hp.2.1
        rw [squareToCondensed_symm, h1]
        simp only [bind, Except.bind, h2]
        rw [hS]
        rfl
    rw [List.foldlM_cons, hstep]
    simp only [bind, Except.bind]
    have := ih (fun q hq => hps q (by simp [hq])) (acc + S p.1 p.2)
    rw [this, List.map_cons, List.sum_cons, add_assoc]

theorem mem_pairs {α : Type} {l : List α} (h : l.Nodup) {p : α × α} (hp : p ∈ pairs l) :
    p.1 ≠ p.2 ∧ p.1 ∈ l ∧ p.2 ∈ l := by
  induction l with
  | nil => simp [pairs] at hp
  | cons a l ih =>
    rw [List.nodup_cons] at h
    simp only [pairs, List.mem_append, List.mem_map] at hp
    rcases hp with ⟨b, hb, rfl⟩ | hp
    · exact ⟨fun e => h.1 (by simp only at e; rw [e]; exact hb), by simp, by simp [hb]⟩
    · obtain ⟨h1, h2, h3⟩ := ih h.2 hp
      exact ⟨h1, by simp [h2], by simp [h3]⟩

theorem pairs_length {α : Type} (l : List α) : (pairs l).length * 2 = l.length * (l.length - 1) := by
  induction l with
  | nil => simp [pairs]
  | cons a l ih =>
    simp only [pairs, List.length_append, List.length_map, List.length_cons, Nat.add_sub_cancel]
    rw [Nat.add_mul, ih]
    rcases l.length with _ | m
    · simp
    · simp only [Nat.add_sub_cancel]; ring

theorem sum_map_add' {ι : Type} (l : List ι) (f g : ι → K) :
    (l.map (fun i => f i + g i)).sum = (l.map f).sum + (l.map g).sum := by
  induction l with
  | nil => simp
  | cons a l ih => simp only [List.map_cons, List.sum_cons, ih]; ring

theorem orderedSum_pairs (S : Nat → Nat → K) (hS : ∀ i j, S i j = S j i) (idx : List Nat)
    (h : idx.Nodup) : orderedSum S idx = 2 * ((pairs idx).map (fun p => S p.1 p.2)).sum := by
  induction idx with
  | nil => simp [orderedSum, pairs]
  | cons a l ih =>
    rw [List.nodup_cons] at h
    have hrow : (l.map (fun j => if a = j then 0 else S a j)).sum = (l.map (S a)).sum := by
      congr 1
      exact List.map_congr_left (fun j hj => if_neg (fun e => h.1 (by rw [e]; exact hj)))
    have hcol : l.map (fun i => ((a :: l).map (fun j => if i = j then 0 else S i j)).sum)
        = l.map (fun i => S a i + (l.map (fun j => if i = j then 0 else S i j)).sum) := by
      refine List.map_congr_left (fun i hi => ?_)
      rw [List.map_cons, List.sum_cons, if_neg (fun e => h.1 (by rw [← e]; exact hi)), hS]
    have ih' := ih h.2
    unfold orderedSum at ih' ⊢
    rw [List.map_cons, List.sum_cons, hcol, sum_map_add', ih', List.map_cons, List.sum_cons, if_pos rfl,
      hrow]
    simp only [pairs, List.map_append, List.map_map, List.sum_append]
    have : (l.map ((fun p : Nat × Nat => S p.1 p.2) ∘ fun b => (a, b))).sum = (l.map (S a)).sum := rfl
    rw [this, show (l.map fun i => S a i) = l.map (S a) from rfl]
    ring

variable [LinearOrder K] [IsStrictOrderedRing K]

/-- C47: on the condensed form of a symmetric `n × n` matrix, `average_similarity` of a cluster of at least
two different ids below `n` is the mean of the matrix over the ordered pairs of different ids — so `n` is
recovered from the array's length and every entry read is the one of the pair. -/
theorem C47_average (n : Nat) (S : Nat → Nat → K) (hS : ∀ i j, S i j = S j i) (idx : List Nat)
    (hnd : idx.Nodup) (hlt : ∀ i ∈ idx, i < n) (h2 : 2 ≤ idx.length) :
    averageSimilarity idx (Condensed n S)
      = .ok (orderedSum S idx / (idx.length * (idx.length - 1 : Nat) : Nat)) := by
  have hn : 1 ≤ n := by
    rcases idx with _ | ⟨a, l⟩
    · simp at h2
    · have := hlt a (by simp)
      omega
  have hl := pairs_length idx
  unfold averageSimilarity
  simp only [condensed_length, sqrt_condensed n hn]
  rw [foldlM_addSim n S hS _ (fun p hp => by
    obtain ⟨a, b, c⟩ := mem_pairs hnd hp
    exact ⟨a, hlt _ b, hlt _ c⟩)]
  simp only [bind, Except.bind, zero_add]
  have hc : idx.length * (idx.length - 1) / 2 = (pairs idx).length := by omega
  have hpos : (pairs idx).length ≠ 0 := by
    intro e
    rw [e] at hl
    rcases hx : idx.length with _ | _ | m
    · omega
    · omega
    · rw [hx] at hl; simp at hl
  rw [hc, if_neg hpos, orderedSum_pairs S hS idx hnd, ← hl]
  simp only [pure, Except.pure, Except.ok.injEq]
  have : ((pairs idx).length : K) ≠ 0 := Nat.cast_ne_zero.2 hpos
  push_cast
  field_simp

/-- C47: the average similarity lies between any lower and any upper bound of the pairwise similarities. -/
theorem C47_between (n : Nat) (S : Nat → Nat → K) (hS : ∀ i j, S i j = S j i) (idx : List Nat)
    (hnd : idx.Nodup) (hlt : ∀ i ∈ idx, i < n) (h2 : 2 ≤ idx.length) (lo hi : K)
    (hlo : ∀ i ∈ idx, ∀ j ∈ idx, i ≠ j → lo ≤ S i j) (hhi : ∀ i ∈ idx, ∀ j ∈ idx, i ≠ j → S i j ≤ hi) :
    ∃ a, averageSimilarity idx (Condensed n S) = .ok a ∧ lo ≤ a ∧ a ≤ hi := by
  refine ⟨_, C47_average n S hS idx hnd hlt h2, ?_⟩
  have hl := pairs_length idx
  have hpos : (pairs idx).length ≠ 0 := by
    intro e
    rw [e] at hl
    rcases hx : idx.length with _ | _ | m
    · omega
    · omega
    · rw [hx] at hl; simp at hl
  have hc : (0 : K) < ((pairs idx).length : K) := Nat.cast_pos.2 (Nat.pos_of_ne_zero hpos)
  have e1 : orderedSum S idx / (idx.length * (idx.length - 1 : Nat) : Nat)
      = ((pairs idx).map (fun p => S p.1 p.2)).sum / (pairs idx).length := by
    rw [orderedSum_pairs S hS idx hnd, ← hl]
    push_cast
    field_simp
  rw [e1, le_div_iff₀ hc, div_le_iff₀ hc]
  constructor
  · have := List.card_nsmul_le_sum ((pairs idx).map (fun p => S p.1 p.2)) lo (by
      intro x hx
      obtain ⟨p, hp, rfl⟩ := List.mem_map.1 hx
      obtain ⟨a, b, c⟩ := mem_pairs hnd hp
      exact hlo _ b _ c a)
    rw [List.length_map, nsmul_eq_mul] at this
    linarith
  · have := List.sum_le_card_nsmul ((pairs idx).map (fun p => S p.1 p.2)) hi (by
      intro x hx
      obtain ⟨p, hp, rfl⟩ := List.mem_map.1 hx
      obtain ⟨a, b, c⟩ := mem_pairs hnd hp
      exact hhi _ b _ c a)
    rw [List.length_map, nsmul_eq_mul] at this
    linarith

/-- A cluster of fewer than two ids has no average: the division by zero is an error. -/
theorem C47_small (idx : List Nat) (simmx : List K) (h : idx.length ≤ 1) :
    averageSimilarity idx simmx = .error .zeroDivision := by
  rcases idx with _ | ⟨a, _ | ⟨b, l⟩⟩
  · simp [averageSimilarity, pairs, bind, Except.bind, pure, Except.pure]
  · simp [averageSimilarity, pairs, bind, Except.bind, pure, Except.pure]
  · simp at h

/-- A symmetric matrix and a cluster meeting the hypotheses. -/
example : averageSimilarity [0, 2, 3] (Condensed 4 (fun i j => ((i * j + i + j : Nat) : ℚ)))
    = .ok (16 / 3) := by
  rw [C47_average 4 _ (by intro i j; congr 1; ring) _ (by decide) (by decide) (by decide)]
  simp [orderedSum]
  norm_num

/-- **C47**, ids outside the matrix are not refused: the average of the words 6 and 7 of a matrix of three words is the
similarity of the words 0 and 1 (the subscript -3 counts from the end), and that of 0 and 3 that of 1 and 2. -/
theorem C47_outside : averageSimilarity [6, 7] (Condensed 3 (fun i j => (1 / (1 + i + 3 * j) : ℚ))) = .ok (1 / 4) ∧
    averageSimilarity [0, 3] (Condensed 3 (fun i j => (1 / (1 + i + 3 * j) : ℚ))) = .ok (1 / 8) := by
  constructor <;> decide +kernel

end Verif.Cbc
