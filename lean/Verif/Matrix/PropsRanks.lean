import Verif.Matrix.PropsQuery

/-!
# Claim C179: a rank is one more than the number of more similar items
-/

namespace Verif.Matrix
open Verif.Py
set_option linter.unusedSectionVars false

variable {κ ν : Type} [LinearOrder κ]

theorem countP_range_lt (n : Nat) (v : Int) (h1 : 1 ≤ v) :
    (((List.range n).countP (fun p : Nat => decide ((p : Int) + 1 < v)) : Nat) : Int) = min (n : Int) (v - 1) := by
  induction n with
  | zero => simp; omega
  | succ n ih =>
    rw [List.range_succ, List.countP_append, Nat.cast_add, ih, List.countP_cons, List.countP_nil]
    by_cases h : (n : Int) + 1 < v
    · simp [h]; omega
    · simp [h]; omega

/-- In a list whose values are the numbers from one to its length, `v - 1` elements are below the value `v`. -/
theorem count_below {L : List κ} {f : κ → Int}
    (hp : (L.map f).Perm ((List.range L.length).map (fun p : Nat => (p : Int) + 1))) {c : κ} (hc : c ∈ L) :
    (((L.countP (fun c' => decide (f c' < f c))) : Nat) : Int) = f c - 1 ∧ 1 ≤ f c ∧ f c ≤ L.length := by
  have hm : f c ∈ (List.range L.length).map (fun p : Nat => (p : Int) + 1) := hp.mem_iff.1 (List.mem_map.2 ⟨c, hc, rfl⟩)
  obtain ⟨p, hpr, hpe⟩ := List.mem_map.1 hm
  have hpl := List.mem_range.1 hpr
  have e := hp.countP_eq (fun v : Int => decide (v < f c))
  rw [List.countP_map, List.countP_map] at e
  have e1 : (fun v : Int => decide (v < f c)) ∘ f = fun c' => decide (f c' < f c) := rfl
  have e2 : (fun v : Int => decide (v < f c)) ∘ (fun p : Nat => (p : Int) + 1) = fun p : Nat => decide ((p : Int) + 1 < f c) := rfl
  rw [e1, e2] at e
  rw [e, countP_range_lt _ _ (by omega)]
  omega

theorem count_upto {L : List κ} {f : κ → Int}
    (hp : (L.map f).Perm ((List.range L.length).map (fun p : Nat => (p : Int) + 1))) {c : κ} (hc : c ∈ L) :
    (((L.countP (fun c' => decide (f c' ≤ f c))) : Nat) : Int) = f c := by
  have hm : f c ∈ (List.range L.length).map (fun p : Nat => (p : Int) + 1) := hp.mem_iff.1 (List.mem_map.2 ⟨c, hc, rfl⟩)
  obtain ⟨p, hpr, hpe⟩ := List.mem_map.1 hm
  have hpl := List.mem_range.1 hpr
  have e := hp.countP_eq (fun v : Int => decide (v < f c + 1))
  rw [List.countP_map, List.countP_map] at e
  have e1 : (fun v : Int => decide (v < f c + 1)) ∘ f = fun c' => decide (f c' ≤ f c) := by
    funext x; simp [Int.lt_add_one_iff]
  have e2 : (fun v : Int => decide (v < f c + 1)) ∘ (fun p : Nat => (p : Int) + 1) = fun p : Nat => decide ((p : Int) + 1 < f c + 1) := rfl
  rw [e1, e2] at e
  rw [e, countP_range_lt _ _ (by omega)]
  omega

/-- How many of the columns come before `c` in row `r` if ranks count from the most similar (`reverse` false) or from the least. -/
def ahead [Zero ν] [LinearOrder ν] (m : Mtx κ ν) (reverse : Bool) (r c : κ) : Nat :=
  (m.cols.filter (fun c' => if reverse then entry m r c' < entry m r c else entry m r c < entry m r c')).length

/-- How many columns, `c` itself included, are as similar to row `r` as `c` is. -/
def level [Zero ν] [LinearOrder ν] (m : Mtx κ ν) (r c : κ) : Nat :=
  (m.cols.filter (fun c' => entry m r c' = entry m r c)).length

/-- **C179, with ties**: whatever the sorting routine does with equal similarities, the ranks of items that are equally similar follow
directly on the number of items before them. -/
theorem C179_ties [AddCommGroup ν] [LinearOrder ν] [IsOrderedAddMonoid ν] {sort : List ν → List Nat} (hsort : IsArgsort sort)
    {m : Mtx κ ν} (hm : Valid m) {d : Dn ν} (hb : m.body = .dn d) (hsq : d.nr = d.nc → m.rows = m.cols) (reverse : Bool) :
    ∃ u, simrank sort m reverse = .ok u ∧ u.rows = m.rows ∧ u.cols = m.cols ∧
      ∀ r ∈ m.rows, ∀ c ∈ m.cols,
        (ahead m reverse r c : Int) < entry u r c ∧ entry u r c ≤ (ahead m reverse r c : Int) + level m r c := by
  obtain ⟨u, hu, h1, h2, h3⟩ := C29_simrank hsort hm hb hsq reverse
  refine ⟨u, hu, h1, h2, fun r hr c hc => ?_⟩
  obtain ⟨hp, ho⟩ := h3 r hr
  obtain ⟨hlt, hge, -⟩ := count_below hp hc
  have hle := count_upto hp hc
  unfold ahead level
  constructor
  · have : (m.cols.filter (fun c' => if reverse then entry m r c' < entry m r c else entry m r c < entry m r c')).length
        ≤ m.cols.countP (fun c' => decide (entry u r c' < entry u r c)) := by
      rw [← List.countP_eq_length_filter]
      refine List.countP_mono_left (fun c' hc' h => ?_)
      cases reverse with
      | false =>
        simp only [Bool.false_eq_true, if_false, decide_eq_true_eq] at h ho ⊢
        exact ho c' hc' c hc h
      | true =>
        simp only [if_true, decide_eq_true_eq] at h ho ⊢
        exact ho c hc c' hc' h
    omega
  · have : m.cols.countP (fun c' => decide (entry u r c' ≤ entry u r c)) ≤
        (m.cols.filter (fun c' => if reverse then entry m r c' < entry m r c else entry m r c < entry m r c')).length +
        (m.cols.filter (fun c' => entry m r c' = entry m r c)).length := by
      rw [← List.countP_eq_length_filter, ← List.countP_eq_length_filter]
      have hsub : m.cols.countP (fun c' => decide (entry u r c' ≤ entry u r c)) ≤ m.cols.countP (fun c' =>
          (decide (if reverse then entry m r c' < entry m r c else entry m r c < entry m r c')) || decide (entry m r c' = entry m r c)) := by
        refine List.countP_mono_left (fun c' hc' h => ?_)
        simp only [decide_eq_true_eq] at h
        rw [Bool.or_eq_true, decide_eq_true_eq, decide_eq_true_eq]
        rcases lt_trichotomy (entry m r c') (entry m r c) with hl | hl | hl
        · cases reverse with
          | true => left; simpa using hl
          | false =>
            have := ho c hc c' hc' hl
            simp only [Bool.false_eq_true, if_false] at this
            omega
        · exact .inr hl
        · cases reverse with
          | false => left; simpa using hl
          | true =>
            have := ho c' hc' c hc hl
            simp only [if_true] at this
            omega
      refine le_trans hsub ?_
      clear hsub hle hlt hp ho h3
      induction m.cols with
      | nil => simp
      | cons x xs ih =>
        rw [List.countP_cons, List.countP_cons, List.countP_cons]
        cases reverse
        · by_cases g1 : entry m r c < entry m r x <;> by_cases g2 : entry m r x = entry m r c <;> simp [g1, g2] at ih ⊢ <;> omega
        · by_cases g1 : entry m r x < entry m r c <;> by_cases g2 : entry m r x = entry m r c <;> simp [g1, g2] at ih ⊢ <;> omega
    omega

/-- **C179_partial.** An item that no other item of the row equals in similarity has a rank of one more than the number of items that
are more similar (less similar, with `reverse`).  Missing: items of equal similarity, which share no rank (`C179_false`); for these see
`C179_ties`. -/
theorem C179_partial [AddCommGroup ν] [LinearOrder ν] [IsOrderedAddMonoid ν] {sort : List ν → List Nat} (hsort : IsArgsort sort)
    {m : Mtx κ ν} (hm : Valid m) {d : Dn ν} (hb : m.body = .dn d) (hsq : d.nr = d.nc → m.rows = m.cols) (reverse : Bool) :
    ∃ u, simrank sort m reverse = .ok u ∧ u.rows = m.rows ∧ u.cols = m.cols ∧
      ∀ r ∈ m.rows, ∀ c ∈ m.cols, (∀ c' ∈ m.cols, c' ≠ c → entry m r c' ≠ entry m r c) →
        entry u r c = (ahead m reverse r c : Int) + 1 := by
  obtain ⟨u, hu, h1, h2, h3⟩ := C179_ties hsort hm hb hsq reverse
  refine ⟨u, hu, h1, h2, fun r hr c hc hne => ?_⟩
  have hl : level m r c = 1 := by
    unfold level
    have : m.cols.filter (fun c' => entry m r c' = entry m r c) = m.cols.filter (fun c' => c' = c) := by
      refine List.filter_congr (fun c' hc' => ?_)
      by_cases e : c' = c
      · simp [e]
      · simp [e, hne c' hc' e]
    rw [this, ← List.countP_eq_length_filter]
    have hcount : m.cols.countP (fun c' => decide (c' = c)) = m.cols.count c := by
      unfold List.count
      congr 1
    rw [hcount, List.count_eq_one_of_mem hm.cols hc]
  have := h3 r hr c hc
  omega

/-- **C179, order only**: two matrices with the same items whose rows are in the same strict order have the same ranks, whatever sorting
routines are used; the values do not matter. -/
theorem C179_order {μ : Type} [AddCommGroup ν] [LinearOrder ν] [IsOrderedAddMonoid ν] [AddCommGroup μ] [LinearOrder μ] [IsOrderedAddMonoid μ]
    {sort : List ν → List Nat} (hsort : IsArgsort sort) {sort' : List μ → List Nat} (hsort' : IsArgsort sort')
    {m : Mtx κ ν} (hm : Valid m) {d : Dn ν} (hb : m.body = .dn d) (hsq : d.nr = d.nc → m.rows = m.cols)
    {m' : Mtx κ μ} (hm' : Valid m') {d' : Dn μ} (hb' : m'.body = .dn d') (hsq' : d'.nr = d'.nc → m'.rows = m'.cols)
    (hrows : m'.rows = m.rows) (hcols : m'.cols = m.cols)
    (hne : ∀ r ∈ m.rows, ∀ c ∈ m.cols, ∀ c' ∈ m.cols, c' ≠ c → entry m r c' ≠ entry m r c)
    (hord : ∀ r ∈ m.rows, ∀ c ∈ m.cols, ∀ c' ∈ m.cols, entry m' r c < entry m' r c' ↔ entry m r c < entry m r c') (reverse : Bool) :
    ∃ u u', simrank sort m reverse = .ok u ∧ simrank sort' m' reverse = .ok u' ∧
      ∀ r ∈ m.rows, ∀ c ∈ m.cols, entry u r c = entry u' r c := by
  obtain ⟨u, hu, -, -, h⟩ := C179_partial hsort hm hb hsq reverse
  obtain ⟨u', hu', -, -, h'⟩ := C179_partial hsort' hm' hb' hsq' reverse
  refine ⟨u, u', hu, hu', fun r hr c hc => ?_⟩
  have hne' : ∀ c' ∈ m'.cols, c' ≠ c → entry m' r c' ≠ entry m' r c := by
    intro c' hc' hcc he
    rw [hcols] at hc'
    rcases lt_or_gt_of_ne (hne r hr c hc c' hc' hcc) with hl | hl
    · have := (hord r hr c' hc' c hc).2 hl; rw [he] at this; exact lt_irrefl _ this
    · have := (hord r hr c hc c' hc').2 hl; rw [he] at this; exact lt_irrefl _ this
  rw [h r hr c hc (hne r hr c hc), h' r (hrows ▸ hr) c (hcols ▸ hc) hne']
  unfold ahead
  rw [hcols]
  congr 3
  refine List.filter_congr (fun c' hc' => ?_)
  cases reverse with
  | false => simp only [Bool.false_eq_true, if_false, hord r hr c hc c' hc']
  | true => simp only [if_true, hord r hr c' hc' c hc]

/-- **C179, both directions**: without ties the two rankings mirror each other. -/
theorem C179_mirror [AddCommGroup ν] [LinearOrder ν] [IsOrderedAddMonoid ν] {sort : List ν → List Nat} (hsort : IsArgsort sort)
    {m : Mtx κ ν} (hm : Valid m) {d : Dn ν} (hb : m.body = .dn d) (hsq : d.nr = d.nc → m.rows = m.cols) :
    ∃ u u', simrank sort m false = .ok u ∧ simrank sort m true = .ok u' ∧
      ∀ r ∈ m.rows, ∀ c ∈ m.cols, (∀ c' ∈ m.cols, c' ≠ c → entry m r c' ≠ entry m r c) →
        entry u r c + entry u' r c = m.cols.length + 1 := by
  obtain ⟨u, hu, -, -, h⟩ := C179_partial hsort hm hb hsq false
  obtain ⟨u', hu', -, -, h'⟩ := C179_partial hsort hm hb hsq true
  refine ⟨u, u', hu, hu', fun r hr c hc hne => ?_⟩
  rw [h r hr c hc hne, h' r hr c hc hne]
  unfold ahead
  simp only [Bool.false_eq_true, if_false, if_true]
  have hnd := hm.cols
  have key : ∀ L : List κ, (∀ c' ∈ L, c' ≠ c → entry m r c' ≠ entry m r c) →
      (L.filter (fun c' => decide (entry m r c < entry m r c'))).length + (L.filter (fun c' => decide (entry m r c' < entry m r c))).length
        + L.count c = L.length := by
    intro L
    induction L with
    | nil => intro _; rfl
    | cons x xs ih =>
      intro hx
      have ih' := ih (fun c' hc' => hx c' (List.mem_cons_of_mem _ hc'))
      rw [List.filter_cons, List.filter_cons, List.count_cons, List.length_cons]
      by_cases e : x = c
      · subst e; simp; omega
      · rcases lt_or_gt_of_ne (hx x List.mem_cons_self e) with g | g
        · simp [e, g, not_lt.2 g.le]; omega
        · simp [e, g, not_lt.2 g.le]; omega
  have := key m.cols hne
  rw [List.count_eq_one_of_mem hnd hc] at this
  omega

/-- **C179, nearest items**: if no two items are equally similar to `item` and none is more similar than `item` itself, then
`most_similar(item, k, descending=True)` gives exactly the other items of rank at most `k + 1`. -/
theorem C179_nearest [AddCommGroup ν] [LinearOrder ν] [IsOrderedAddMonoid ν] [AllClose ν] {sort : List ν → List Nat} (hsort : IsArgsort sort)
    {part : List ν → Nat → List Nat} (hpart : IsArgpartition part)
    {m : Mtx κ ν} (hm : Valid m) {d : Dn ν} (hb : m.body = .dn d) (hs : d.symmetric = true) (hrc : m.rows = m.cols)
    {item : κ} (hi : item ∈ m.rows) (k : Nat) (hk : k + 1 < m.rows.length)
    (hself : ∀ f ∈ m.rows, f ≠ item → entry m item f < entry m item item)
    (hne : ∀ e ∈ m.rows, ∀ f ∈ m.rows, f ≠ e → entry m item f ≠ entry m item e) :
    ∃ res u, mostSimilar part m item k true = .ok res ∧ simrank sort m = .ok u ∧
      ∀ e, e ∈ res ↔ e ∈ m.rows ∧ e ≠ item ∧ entry u item e ≤ (k : Int) + 1 := by
  obtain ⟨res, hres, hnd, hmem, hdom, -, hlen⟩ := C29_most_similar_partial hpart hm hb hs hrc hi k true
  obtain ⟨u, hu, -, -, hrank⟩ := C179_partial hsort hm hb (fun _ => hrc) false
  have hk' : res.length = k := (hlen hk).2 (fun f hf hfi => by rw [if_pos rfl]; exact hself f hf hfi)
  have hr : ∀ e ∈ m.rows, entry u item e = (ahead m false item e : Int) + 1 := fun e he =>
    hrank item hi e (hrc ▸ he) (fun c' hc' hcc => hne e he c' (hrc ▸ hc') hcc)
  refine ⟨res, u, hres, hu, fun e => ⟨fun he => ?_, fun ⟨he, hei, hle⟩ => ?_⟩⟩
  · obtain ⟨he1, he2⟩ := hmem e he
    refine ⟨he1, he2, ?_⟩
    rw [hr e he1]
    have hsub : (m.cols.filter (fun c' => if (false : Bool) then entry m item c' < entry m item e else entry m item e < entry m item c')).length
        ≤ (item :: res.erase e).length := by
      refine List.Subperm.length_le (List.subperm_of_subset (hm.cols.filter _) (fun c' hc' => ?_))
      obtain ⟨h1, h2⟩ := List.mem_filter.1 hc'
      simp only [Bool.false_eq_true, if_false, decide_eq_true_eq] at h2
      by_cases hci : c' = item
      · rw [hci]; exact List.mem_cons_self
      · refine List.mem_cons_of_mem _ ((List.mem_erase_of_ne (fun h => ?_)).2 ?_)
        · rw [h] at h2; exact lt_irrefl _ h2
        · by_contra hn
          have := hdom e he c' (hrc ▸ h1) hci hn
          rw [if_pos rfl] at this
          exact absurd h2 (not_lt.2 this)
    rw [List.length_cons, List.length_erase_of_mem he, hk'] at hsub
    have hkp : 0 < res.length := List.length_pos_of_mem he
    unfold ahead
    omega
  · by_contra hn
    rw [hr e he] at hle
    have hsub : (item :: res).length ≤
        (m.cols.filter (fun c' => if (false : Bool) then entry m item c' < entry m item e else entry m item e < entry m item c')).length := by
      refine List.Subperm.length_le (List.subperm_of_subset (List.nodup_cons.2 ⟨fun h => (hmem item h).2 rfl, hnd⟩) (fun c' hc' => ?_))
      refine List.mem_filter.2 ?_
      simp only [Bool.false_eq_true, if_false, decide_eq_true_eq]
      rcases List.mem_cons.1 hc' with h | h
      · subst h; exact ⟨hrc ▸ hi, hself e he hei⟩
      · have h1 := (hmem c' h).1
        refine ⟨hrc ▸ h1, ?_⟩
        have := hdom c' h e he hei hn
        rw [if_pos rfl] at this
        exact lt_of_le_of_ne this (hne c' h1 e he (fun hec => hn (hec ▸ h)))
    rw [List.length_cons, hk'] at hsub
    unfold ahead at hle
    omega

example : ∃ res u, mostSimilar sortPart (⟨.dn { nr := 3, nc := 3, elem := fun i j => if i = j then 9 else (i + j : Int) }, [7, 8, 9], [7, 8, 9]⟩ : Mtx Nat Int)
      7 1 true = .ok res ∧ simrank (fun l => sortPart l 0) (⟨.dn { nr := 3, nc := 3, elem := fun i j => if i = j then 9 else (i + j : Int) }, [7, 8, 9], [7, 8, 9]⟩ : Mtx Nat Int) = .ok u ∧
      res = [9] ∧ [entry u 7 7, entry u 7 8, entry u 7 9] = [1, 3, 2] :=
  ⟨_, _, rfl, rfl, rfl, by decide +kernel⟩

/-- Three items, the second and third equally similar to the first. -/
def rankEx : Mtx Nat Int := ⟨.dn { nr := 1, nc := 3, elem := fun _ j => if j = 0 then 9 else 4 }, [7], [1, 2, 3]⟩

/-- **C179 is false in general**: two items that are equally similar to the item of the row have different ranks, one of them more than
one above the number of more similar items. -/
theorem C179_false : IsArgsort (fun l : List Int => sortPart l 0) ∧ Valid rankEx ∧ entry rankEx 7 2 = entry rankEx 7 3 ∧
    ahead rankEx false 7 3 = 1 ∧
    ∃ u, simrank (fun l => sortPart l 0) rankEx = .ok u ∧ entry u 7 2 = 2 ∧ entry u 7 3 = 3 := by
  refine ⟨sortPart_argsort, ⟨rfl, rfl, by decide, by decide, fun s hs => by cases hs⟩, by decide +kernel, by decide +kernel, _, rfl, by decide +kernel, by decide +kernel⟩

/-- Distinct similarities. -/
example : let m : Mtx Nat Int := ⟨.dn { nr := 1, nc := 3, elem := fun _ j => if j = 0 then 9 else if j = 1 then 4 else 6 }, [7], [1, 2, 3]⟩
    Valid m ∧ (∀ r ∈ m.rows, ∀ c ∈ m.cols, ∀ c' ∈ m.cols, c' ≠ c → entry m r c' ≠ entry m r c) ∧
    [ahead m false 7 1, ahead m false 7 2, ahead m false 7 3] = [0, 2, 1] := by
  refine ⟨⟨rfl, rfl, by decide, by decide, fun s hs => by cases hs⟩, by decide +kernel, by decide +kernel⟩

end Verif.Matrix
