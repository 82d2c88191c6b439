import Verif.Window.Model
import Mathlib.Algebra.BigOperators.Intervals

/-! Helper lemmas about the window model. -/

namespace Verif.Window
open Verif.Py Verif.Vocab Verif.Corpus

variable {α ℓ μ κ D : Type}

/-- The line at position `i` of a segment; `none` before its start and after its end. -/
def slot (xs : List α) (i : Int) : Option α := if 0 ≤ i then xs[i.toNat]? else none

/-- The window around position `i` of a segment. -/
def winAt (L R : Nat) (xs : List α) (i : Int) : Win α :=
  { lspan := L, rspan := R
    left := (List.range L).map (fun k : Nat => slot xs (i - L + k))
    right := (List.range R).map (fun k : Nat => slot xs (i + 1 + k))
    node := slot xs i }

theorem slot_nat (xs : List α) (i : Nat) : slot xs i = xs[i]? := by simp [slot]

theorem slot_neg (xs : List α) {i : Int} (h : i < 0) : slot xs i = none := by
  unfold slot; rw [if_neg (by omega)]

theorem slot_ge (xs : List α) {i : Int} (h : (xs.length : Int) ≤ i) : slot xs i = none := by
  unfold slot
  rw [if_pos (by omega), List.getElem?_eq_none_iff]
  omega

theorem slot_append (xs ys : List α) {i : Int} (h : i < xs.length) : slot (xs ++ ys) i = slot xs i := by
  unfold slot
  split
  · rw [List.getElem?_append_left (by omega)]
  · rfl

theorem dequeAppend_window (g : Int → Option α) (n : Nat) (a : Int) :
    dequeAppend n ((List.range n).map (fun k : Nat => g (a + k))) (g (a + n)) =
      (List.range n).map (fun k : Nat => g (a + 1 + k)) := by
  unfold dequeAppend
  have h : (List.range n).map (fun k : Nat => g (a + k)) ++ [g (a + n)] =
      (List.range (n + 1)).map (fun k : Nat => g (a + k)) := by
    rw [List.range_succ, List.map_append]; rfl
  rw [h, List.length_map, List.length_range, show n + 1 - n = 1 by omega, List.range_succ_eq_map]
  simp only [List.map_cons, List.drop_one, List.tail_cons, List.map_map]
  apply List.map_congr_left
  intro k _
  simp only [Function.comp, Nat.succ_eq_add_one]
  congr 1
  push_cast; omega

theorem update_winAt (L R : Nat) (xs : List α) (i : Int) :
    (winAt L R xs i).update (slot xs (i + 1 + R)) = winAt L R xs (i + 1) := by
  have hl : (if 0 < L then dequeAppend L ((List.range L).map (fun k : Nat => slot xs (i - L + k))) (slot xs i)
      else (List.range L).map (fun k : Nat => slot xs (i - L + k))) =
      (List.range L).map (fun k : Nat => slot xs (i + 1 - L + k)) := by
    split
    · have := dequeAppend_window (slot xs) L (i - L)
      rw [show i - (L : Int) + L = i by omega] at this
      rw [this]
      apply List.map_congr_left
      intro k _
      congr 1; omega
    · have : L = 0 := by omega
      subst this; rfl
  unfold Win.update winAt
  simp only
  rw [hl]
  by_cases hR : 0 < R
  · simp only [if_pos hR]
    have h1 : (((List.range R).map (fun k : Nat => slot xs (i + 1 + k))).head?).join = slot xs (i + 1) := by
      obtain ⟨R, rfl⟩ := Nat.exists_eq_succ_of_ne_zero hR.ne'
      rw [Nat.succ_eq_add_one, List.range_succ_eq_map]
      simp
    rw [h1, dequeAppend_window (slot xs) R (i + 1)]
  · have : R = 0 := by omega
    subst this
    simp

theorem update_winAt_none (L R : Nat) (xs : List α) (i : Int) (h : (xs.length : Int) ≤ i + 1 + R) :
    (winAt L R xs i).update none = winAt L R xs (i + 1) := by
  rw [← update_winAt, slot_ge xs h]

theorem init_eq (L R : Nat) (xs : List α) : Win.init L R = winAt L R xs (-1 - R) := by
  unfold Win.init winAt
  congr 1
  · symm
    rw [List.eq_replicate_iff]
    refine ⟨by simp, ?_⟩
    intro b hb
    obtain ⟨k, hk, rfl⟩ := List.mem_map.1 hb
    rw [List.mem_range] at hk
    exact slot_neg _ (by omega)
  · symm
    rw [List.eq_replicate_iff]
    refine ⟨by simp, ?_⟩
    intro b hb
    obtain ⟨k, hk, rfl⟩ := List.mem_map.1 hb
    rw [List.mem_range] at hk
    exact slot_neg _ (by omega)
  · exact (slot_neg _ (by omega)).symm

theorem winAt_append (L R : Nat) (xs ys : List α) (i : Int) (h : i + R < xs.length) :
    winAt L R (xs ++ ys) i = winAt L R xs i := by
  unfold winAt
  congr 1
  · apply List.map_congr_left
    intro k hk
    rw [List.mem_range] at hk
    exact slot_append _ _ (by omega)
  · apply List.map_congr_left
    intro k hk
    rw [List.mem_range] at hk
    exact slot_append _ _ (by omega)
  · exact slot_append _ _ (by omega)

theorem update_winAt_some (L R : Nat) (xs : List α) (x : α) :
    (winAt L R xs (xs.length - 1 - R)).update (some x) = winAt L R (xs ++ [x]) ((xs ++ [x]).length - 1 - R) := by
  have e : winAt L R xs (xs.length - 1 - R) = winAt L R (xs ++ [x]) (xs.length - 1 - R) :=
    (winAt_append L R xs [x] _ (by omega)).symm
  have h : slot (xs ++ [x]) ((xs.length : Int) - 1 - R + 1 + R) = some x := by
    rw [show (xs.length : Int) - 1 - R + 1 + R = (xs.length : Nat) by omega, slot_nat]
    simp
  rw [e, ← h, update_winAt]
  congr 1
  simp only [List.length_append, List.length_cons, List.length_nil]
  push_cast; omega

/-- Feeding a segment to a fresh window. -/
theorem feed_eq (L R : Nat) (xs : List α) :
    xs.foldl (fun w x => w.update (some x)) (Win.init L R) = winAt L R xs (xs.length - 1 - R) := by
  induction xs using List.reverseRecOn with
  | nil => rw [List.foldl_nil, init_eq L R []]; congr 1
  | append_singleton xs x ih =>
    rw [List.foldl_append, ih, List.foldl_cons, List.foldl_nil, update_winAt_some]

/-! ### The visits of one segment -/

/-- The callback applied to the windows around the first `N` positions of a segment. -/
def segFold (onMatch : D → Win α → D) (L R : Nat) (xs : List α) (d : D) (N : Nat) : D :=
  (List.range N).foldl (fun d (i : Nat) => onMatch d (winAt L R xs i)) d

theorem segFold_zero (onMatch : D → Win α → D) (L R : Nat) (xs : List α) (d : D) : segFold onMatch L R xs d 0 = d := rfl

theorem segFold_succ (onMatch : D → Win α → D) (L R : Nat) (xs : List α) (d : D) (N : Nat) :
    segFold onMatch L R xs d (N + 1) = onMatch (segFold onMatch L R xs d N) (winAt L R xs N) := by
  unfold segFold; rw [List.range_succ, List.foldl_append]; rfl

theorem segFold_append (onMatch : D → Win α → D) (L R : Nat) (xs ys : List α) (d : D) (N : Nat)
    (h : N + R ≤ xs.length) : segFold onMatch L R (xs ++ ys) d N = segFold onMatch L R xs d N := by
  induction N with
  | zero => rfl
  | succ N ih =>
    rw [segFold_succ, segFold_succ, ih (by omega), winAt_append _ _ _ _ _ (by omega)]

/-- A callback that ignores windows without a centre (both handlers' `update_one_match`). -/
def IgnoresNone (onMatch : D → Win α → D) : Prop := ∀ d w, w.node = none → onMatch d w = d

theorem node_winAt (L R : Nat) (xs : List α) (i : Int) : (winAt L R xs i).node = slot xs i := rfl

theorem slot_isSome (xs : List α) (i : Nat) (h : i < xs.length) : slot xs i = some xs[i] := by
  rw [slot_nat, List.getElem?_eq_getElem h]

theorem drainNormal_eq {onMatch : D → Win α → D} (hI : IgnoresNone onMatch) (L R : Nat) (xs : List α) (d : D)
    (k j n : Nat) (hj : j < xs.length) (hk : k = xs.length - 1 - j) (hR : k ≤ R) (hn : k + 1 ≤ n) :
    drainNormal onMatch n (segFold onMatch L R xs d (j + 1)) (winAt L R xs j) =
      .ok (segFold onMatch L R xs d xs.length) := by
  induction k generalizing j n with
  | zero =>
    obtain ⟨n, rfl⟩ : ∃ m, n = m + 1 := ⟨n - 1, by omega⟩
    unfold drainNormal
    rw [node_winAt, slot_isSome xs j hj]
    simp only
    rw [update_winAt_none _ _ _ _ (by omega)]
    have hnone : (winAt L R xs ((j : Int) + 1)).node = none := by
      rw [node_winAt]; exact slot_ge xs (by omega)
    rw [hI _ _ hnone]
    have : xs.length = j + 1 := by omega
    unfold drainNormal
    rw [hnone]
    simp only [this]
  | succ k ih =>
    obtain ⟨n, rfl⟩ : ∃ m, n = m + 1 := ⟨n - 1, by omega⟩
    unfold drainNormal
    rw [node_winAt, slot_isSome xs j hj]
    simp only
    rw [update_winAt_none _ _ _ _ (by omega)]
    have e : (j : Int) + 1 = ((j + 1 : Nat) : Int) := by push_cast; rfl
    rw [e, ← segFold_succ onMatch]
    exact ih (j + 1) n (by omega) (by omega) (by omega) (by omega)

theorem skipNone_eq (L R : Nat) (xs : List α) (a b : Nat) (hx : xs ≠ []) (ha : xs.length + a ≤ R + 1) :
    skipNone (a + b) (winAt L R xs (-(a : Int))) = (b, winAt L R xs 0) := by
  induction a with
  | zero =>
    have hpos : 0 < xs.length := List.length_pos_iff.2 hx
    cases b with
    | zero => simp [skipNone]
    | succ b =>
      have : (winAt L R xs (-((0 : Nat) : Int))).node = some xs[0] := by
        have := slot_isSome xs 0 hpos
        simpa [winAt] using this
      rw [show 0 + (b + 1) = b + 1 by omega]
      unfold skipNone
      rw [this]
      simp
  | succ a ih =>
    have : (winAt L R xs (-((a + 1 : Nat) : Int))).node = none := by
      rw [node_winAt]; exact slot_neg xs (by push_cast; omega)
    rw [show a + 1 + b = a + b + 1 by omega]
    unfold skipNone
    rw [this]
    simp only
    rw [update_winAt_none _ _ _ _ (by push_cast; omega), show -((a + 1 : Nat) : Int) + 1 = -(a : Int) by push_cast; omega]
    exact ih (by omega)

theorem skipNone_nil (L R : Nat) (n : Nat) (i : Int) : (skipNone n (winAt L R ([] : List α) i)).1 = 0 := by
  have hs : ∀ i, slot ([] : List α) i = none := by intro i; unfold slot; split <;> simp
  induction n generalizing i with
  | zero => rfl
  | succ n ih =>
    unfold skipNone
    rw [node_winAt, hs]
    simp only
    have : (winAt L R ([] : List α) i).update none = winAt L R [] (i + 1) := by
      rw [← update_winAt, hs]
    rw [this]
    exact ih _

theorem drainSpecial_eq (onMatch : D → Win α → D) (L R : Nat) (xs : List α) (d : D) (m j : Nat)
    (h : j + m ≤ xs.length) (hR : xs.length ≤ R + j + 1) :
    drainSpecial onMatch m (segFold onMatch L R xs d j) (winAt L R xs j) = segFold onMatch L R xs d (j + m) := by
  induction m generalizing j with
  | zero => simp [drainSpecial]
  | succ m ih =>
    unfold drainSpecial
    rw [node_winAt, slot_isSome xs j (by omega)]
    simp only
    rw [update_winAt_none _ _ _ _ (by omega), ← segFold_succ onMatch]
    have := ih (j + 1) (by omega) (by omega)
    rw [show j + (m + 1) = j + 1 + m by omega, ← this]
    push_cast; rfl

/-- Number of positions of a segment that `ColFreqHandler` visits. -/
def colVisits (R n : Nat) : Nat := if n ≤ R then n - 1 else n

theorem colEnd_eq {onMatch : D → Win α → D} (hI : IgnoresNone onMatch) (L R : Nat) (xs : List α) (d : D) :
    colEnd onMatch (segFold onMatch L R xs d (xs.length - R)) (winAt L R xs (xs.length - 1 - R)) =
      .ok (segFold onMatch L R xs d (colVisits R xs.length)) := by
  unfold colVisits
  by_cases h : xs.length ≤ R
  · rw [if_pos h, show xs.length - R = 0 by omega, segFold_zero]
    unfold colEnd
    have hn : (winAt L R xs ((xs.length : Int) - 1 - R)).node = none := slot_neg xs (by omega)
    rw [hn]
    simp only
    by_cases hx : xs = []
    · subst hx
      have := skipNone_nil (α := α) L R (winAt L R ([] : List α) (((([] : List α).length : Nat) : Int) - 1 - R)).rspan
        (((([] : List α).length : Nat) : Int) - 1 - R)
      rw [this]
      simp [drainSpecial, segFold]
    · have hpos : 0 < xs.length := List.length_pos_iff.2 hx
      have := skipNone_eq L R xs (R + 1 - xs.length) (xs.length - 1) hx (by omega)
      rw [show R + 1 - xs.length + (xs.length - 1) = R by omega,
        show -((R + 1 - xs.length : Nat) : Int) = (xs.length : Int) - 1 - R by omega] at this
      rw [show (winAt L R xs ((xs.length : Int) - 1 - R)).rspan = R from rfl, this]
      simp only
      have e := drainSpecial_eq onMatch L R xs d (xs.length - 1) 0 (by omega) (by omega)
      rw [segFold_zero] at e
      rw [Nat.zero_add] at e
      exact congrArg Except.ok e
  · rw [if_neg h]
    unfold colEnd
    have e : (xs.length : Int) - 1 - R = ((xs.length - 1 - R : Nat) : Int) := by omega
    rw [e, node_winAt, slot_isSome xs _ (by omega)]
    simp only
    rw [show xs.length - R = (xs.length - 1 - R) + 1 by omega]
    exact drainNormal_eq hI L R xs d R (xs.length - 1 - R) _ (by omega) (by omega) (by omega) (by exact le_refl _)

theorem tokSkip_eq (L R : Nat) (xs : List α) (a n : Nat) (hx : xs ≠ []) (ha : xs.length + a ≤ R + 1) (hn : a ≤ n) :
    tokSkip n (winAt L R xs (-(a : Int))) = .ok (winAt L R xs 0) := by
  induction a generalizing n with
  | zero =>
    have hpos : 0 < xs.length := List.length_pos_iff.2 hx
    unfold tokSkip
    have : (winAt L R xs (-((0 : Nat) : Int))).node = some xs[0] := by
      have := slot_isSome xs 0 hpos
      simpa [winAt] using this
    rw [this]
    simp
  | succ a ih =>
    obtain ⟨n, rfl⟩ : ∃ m, n = m + 1 := ⟨n - 1, by omega⟩
    have : (winAt L R xs (-((a + 1 : Nat) : Int))).node = none := by
      rw [node_winAt]; exact slot_neg xs (by push_cast; omega)
    unfold tokSkip
    rw [this]
    simp only
    rw [update_winAt_none _ _ _ _ (by push_cast; omega), show -((a + 1 : Nat) : Int) + 1 = -(a : Int) by push_cast; omega]
    exact ih n (by omega) (by omega)

theorem tokDrain_eq (onMatch : D → Win α → D) (L R : Nat) (xs : List α) (d : D) (m j n : Nat)
    (h : j + m = xs.length) (hR : xs.length ≤ R + j + 1) (hn : m ≤ n) :
    tokDrain onMatch n (segFold onMatch L R xs d j) (winAt L R xs j) = .ok (segFold onMatch L R xs d xs.length) := by
  induction m generalizing j n with
  | zero =>
    unfold tokDrain
    rw [node_winAt, slot_ge xs (by omega)]
    simp only
    rw [show j = xs.length by omega]
  | succ m ih =>
    obtain ⟨n, rfl⟩ : ∃ m, n = m + 1 := ⟨n - 1, by omega⟩
    unfold tokDrain
    rw [node_winAt, slot_isSome xs j (by omega)]
    simp only
    rw [update_winAt_none _ _ _ _ (by omega), ← segFold_succ onMatch]
    have := ih (j + 1) n (by omega) (by omega) (by omega)
    rw [← this]
    push_cast; rfl

/-- What the end of a segment gives for tokens. -/
def tokSeg (onMatch : D → Win α → D) (L R : Nat) (d : D) (xs : List α) : Except Err D :=
  if R = 0 ∧ xs = [] then .error .indexError else .ok (segFold onMatch L R xs d xs.length)

theorem tokEnd_eq {onMatch : D → Win α → D} (hI : IgnoresNone onMatch) (L R : Nat) (xs : List α) (d : D) :
    tokEnd onMatch (segFold onMatch L R xs d (xs.length - R)) (winAt L R xs (xs.length - 1 - R)) =
      tokSeg onMatch L R d xs := by
  unfold tokSeg
  by_cases h : xs.length ≤ R
  · rw [show xs.length - R = 0 by omega, segFold_zero]
    have hn : (winAt L R xs ((xs.length : Int) - 1 - R)).node = none := slot_neg xs (by omega)
    unfold tokEnd
    rw [hn]
    simp only
    have hlast : (winAt L R xs ((xs.length : Int) - 1 - R)).right.getLast? =
        if R = 0 then none else some (slot xs ((xs.length : Int) - 1)) := by
      unfold winAt
      simp only
      split
      · next h0 => subst h0; rfl
      · next h0 =>
        obtain ⟨R, rfl⟩ := Nat.exists_eq_succ_of_ne_zero h0
        rw [Nat.succ_eq_add_one, List.range_succ, List.map_append]
        simp only [List.map_cons, List.map_nil, List.getLast?_append, List.getLast?_singleton, Option.some_or,
          Option.some.injEq]
        congr 1; push_cast; omega
    rw [hlast]
    by_cases h0 : R = 0
    · have hx : xs = [] := List.eq_nil_of_length_eq_zero (by omega)
      rw [if_pos h0, if_pos ⟨h0, hx⟩]
    · rw [if_neg h0, if_neg (by tauto)]
      by_cases hx : xs = []
      · subst hx
        rw [slot_neg _ (by simp)]
        simp only
        unfold drainNormal
        rw [hn]
        rfl
      · have hpos : 0 < xs.length := List.length_pos_iff.2 hx
        have e : (xs.length : Int) - 1 = ((xs.length - 1 : Nat) : Int) := by omega
        rw [e, slot_isSome xs _ (by omega)]
        simp only
        have s := tokSkip_eq L R xs (R + 1 - xs.length) (R + 1) hx (by omega) (by omega)
        rw [show -((R + 1 - xs.length : Nat) : Int) = ((xs.length - 1 : Nat) : Int) - R by omega] at s
        rw [show (winAt L R xs (((xs.length - 1 : Nat) : Int) - R)).rspan = R from rfl, s]
        show tokDrain onMatch (R + 1) d (winAt L R xs 0) = _
        have e := tokDrain_eq onMatch L R xs d xs.length 0 (R + 1) (by omega) (by omega) (by omega)
        rw [segFold_zero] at e
        exact e
  · have hx : xs ≠ [] := by rintro rfl; simp at h
    rw [if_neg (by tauto)]
    unfold tokEnd
    have e : (xs.length : Int) - 1 - R = ((xs.length - 1 - R : Nat) : Int) := by omega
    rw [e, node_winAt, slot_isSome xs _ (by omega)]
    simp only
    rw [show xs.length - R = (xs.length - 1 - R) + 1 by omega]
    exact drainNormal_eq hI L R xs d R (xs.length - 1 - R) _ (by omega) (by omega) (by omega) (by exact le_refl _)

/-! ### The file as a list of segments -/

/-- A line of the file as the loop sees it: `some (some x)` a match, `some none` a separator, `none` ignored. -/
def classify (f : Formatter ℓ μ κ) (line : ℓ × Nat) : Option (Option (μ × Nat)) :=
  match f.matchLine line.1 with
  | some m => some (some (m, line.2))
  | none => if f.isSep line.1 then some none else none

/-- Specification: the segments of a file, each the list of its matching lines with line numbers (from 1).  Lines
that neither match nor separate are dropped, then the rest is split at the separators. -/
def segments (f : Formatter ℓ μ κ) (file : List ℓ) : List (List (μ × Nat)) :=
  (((file.zipIdx 1).filterMap (classify f)).splitOnP Option.isNone).map (List.filterMap id)

/-- The loop's view of the segments still to come, with the current one in progress. -/
def segsFrom (f : Formatter ℓ μ κ) (cur : List (μ × Nat)) (lid : Nat) (file : List ℓ) : List (List (μ × Nat)) :=
  ((((file.zipIdx (lid + 1)).filterMap (classify f)).splitOnP Option.isNone).map (List.filterMap id)).modifyHead (cur ++ ·)

theorem segsFrom_nil (f : Formatter ℓ μ κ) (cur : List (μ × Nat)) (lid : Nat) : segsFrom f cur lid [] = [cur] := by
  simp [segsFrom, List.splitOnP_nil]

theorem segsFrom_cons (f : Formatter ℓ μ κ) (cur : List (μ × Nat)) (lid : Nat) (line : ℓ) (file : List ℓ) :
    segsFrom f cur lid (line :: file) =
      match f.matchLine line with
      | some m => segsFrom f (cur ++ [(m, lid + 1)]) (lid + 1) file
      | none => if f.isSep line then cur :: segsFrom f [] (lid + 1) file else segsFrom f cur (lid + 1) file := by
  unfold segsFrom
  rw [List.zipIdx_cons, List.filterMap_cons]
  have hc : classify f (line, lid + 1) = match f.matchLine line with
      | some m => some (some (m, lid + 1))
      | none => if f.isSep line then some none else none := rfl
  cases hm : f.matchLine line with
  | some m =>
    rw [hc, hm]
    simp only [List.splitOnP_cons_eq_if_modifyHead, Option.isNone_some, Bool.false_eq_true, if_false]
    cases hs : List.splitOnP Option.isNone (List.filterMap (classify f) (file.zipIdx (lid + 1 + 1))) with
    | nil => exact absurd hs (List.splitOnP_ne_nil _ _)
    | cons a l => simp
  | none =>
    rw [hc, hm]
    by_cases h : f.isSep line
    · simp only [h, if_true, List.splitOnP_cons_eq_if_modifyHead, Option.isNone_none]
      cases hs : List.splitOnP Option.isNone (List.filterMap (classify f) (file.zipIdx (lid + 1 + 1))) with
      | nil => exact absurd hs (List.splitOnP_ne_nil _ _)
      | cons a l => simp
    · simp [h]

theorem segments_eq (f : Formatter ℓ μ κ) (file : List ℓ) : segments f file = segsFrom f [] 0 file := by
  unfold segments segsFrom
  cases ((file.zipIdx 1).filterMap (classify f)).splitOnP Option.isNone <;> simp

/-- Running the file loop is running over its segments, given what the end-of-segment callback does. -/
theorem run_file (f : Formatter ℓ μ κ) (L R : Nat) (cb : Callbacks D (μ × Nat)) (hI : IgnoresNone cb.onMatch)
    (seg : D → List (μ × Nat) → Except Err D)
    (hseg : ∀ d xs, cb.onEnd (segFold cb.onMatch L R xs d (xs.length - R)) (winAt L R xs (xs.length - 1 - R)) = seg d xs)
    (d : D) (file : List ℓ) : updateFile f L R cb d file = (segments f file).foldlM seg d := by
  have key : ∀ (file : List ℓ) (d : D) (cur : List (μ × Nat)) (lid : Nat),
      (do let s ← file.foldlM (fileLine f L R cb)
            { data := segFold cb.onMatch L R cur d (cur.length - R), win := winAt L R cur (cur.length - 1 - R), lid := lid }
          cb.onEnd s.data s.win) = (segsFrom f cur lid file).foldlM seg d := by
    intro file
    induction file with
    | nil =>
      intro d cur lid
      rw [segsFrom_nil]
      simp only [List.foldlM_nil, List.foldlM_cons, pure_bind]
      rw [hseg]
      cases seg d cur <;> rfl
    | cons line file ih =>
      intro d cur lid
      rw [segsFrom_cons, List.foldlM_cons]
      cases hm : f.matchLine line with
      | some m =>
        simp only
        rw [← ih d (cur ++ [(m, lid + 1)]) (lid + 1)]
        have : fileLine f L R cb ⟨segFold cb.onMatch L R cur d (cur.length - R), winAt L R cur (cur.length - 1 - R), lid⟩ line =
            .ok ⟨segFold cb.onMatch L R (cur ++ [(m, lid + 1)]) d ((cur ++ [(m, lid + 1)]).length - R),
                  winAt L R (cur ++ [(m, lid + 1)]) ((cur ++ [(m, lid + 1)]).length - 1 - R), lid + 1⟩ := by
          unfold fileLine
          rw [hm]
          simp only
          rw [update_winAt_some]
          congr 2
          by_cases hc : cur.length < R
          · have e1 : cur.length - R = 0 := by omega
            have e2 : (cur ++ [(m, lid + 1)]).length - R = 0 := by simp; omega
            rw [e1, e2, segFold_zero, segFold_zero]
            exact hI _ _ (slot_neg _ (by simp; omega))
          · have e2 : (cur ++ [(m, lid + 1)]).length - R = cur.length - R + 1 := by simp; omega
            rw [e2, segFold_succ, segFold_append _ _ _ _ _ _ _ (by omega)]
            congr 2
            simp; omega
        rw [this]
        rfl
      | none =>
        simp only
        by_cases h : f.isSep line
        · rw [if_pos h, List.foldlM_cons]
          have : fileLine f L R cb ⟨segFold cb.onMatch L R cur d (cur.length - R), winAt L R cur (cur.length - 1 - R), lid⟩ line =
              (seg d cur).bind (fun d => .ok { data := d, win := Win.init L R, lid := lid + 1 }) := by
            unfold fileLine
            rw [hm]
            simp only [h, if_true]
            rw [hseg]
            rfl
          rw [this]
          cases hs : seg d cur with
          | error e => rfl
          | ok d' =>
            have e := ih d' [] (lid + 1)
            simp only [List.length_nil, Nat.zero_sub, segFold_zero] at e
            have e0 : ((0 : Nat) : Int) - 1 - R = -1 - R := by omega
            rw [e0, ← init_eq L R []] at e
            exact e
        · rw [if_neg h, ← ih d cur (lid + 1)]
          have : fileLine f L R cb ⟨segFold cb.onMatch L R cur d (cur.length - R), winAt L R cur (cur.length - 1 - R), lid⟩ line =
              .ok ⟨segFold cb.onMatch L R cur d (cur.length - R), winAt L R cur (cur.length - 1 - R), lid + 1⟩ := by
            unfold fileLine
            rw [hm]
            simp [h]
          rw [this]
          rfl
  have := key file d [] 0
  rw [segments_eq, ← this]
  unfold updateFile
  have e0 : ((0 : Nat) : Int) - 1 - R = -1 - R := by omega
  simp only [List.length_nil, Nat.zero_sub, segFold_zero]
  rw [e0, ← init_eq L R []]

end Verif.Window
