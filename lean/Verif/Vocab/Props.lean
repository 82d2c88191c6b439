import Verif.Vocab.Lemmas
import Verif.Vocab.PlainLemmas

/-! # Property theorems C16-C20 (vocabulary) -/

namespace Verif.Vocab
open Verif.Py

variable {κ : Type} [LinearOrder κ]

/-! ## C16: a vocabulary is a finite map under any history -/

/-- Operations a user performs on a vocabulary. -/
inductive Op (κ : Type) where
  | inc (k : κ) (n : Int)   -- vocab.increment(k, n)
  | set (k : κ) (n : Int)   -- vocab[k] = n
  | read (k : κ)            -- vocab[k]

/-- Effect of one operation on the object. -/
def stepOp (v : Vocab κ) : Op κ → Vocab κ
  | .inc k n => increment v k n
  | .set k n => setItem v k n
  | .read k => (getStr v k).2

/-- Specification: a partial map from items to numbers.  Reading does not change it. -/
def specStep (m : κ → Option Int) : Op κ → (κ → Option Int)
  | .inc k n => fun k' => if k' = k then some ((m k).getD 0 + n) else m k'
  | .set k n => fun k' => if k' = k then some n else m k'
  | .read _ => m

theorem step_dflt (v : Vocab κ) (o : Op κ) : (stepOp v o).dflt = v.dflt ∧ (stepOp v o).filter = v.filter := by
  cases o with
  | inc k n => constructor <;> (simp only [stepOp, increment]; split <;> rfl)
  | set k n => exact ⟨rfl, rfl⟩
  | read k => constructor <;> (simp only [stepOp, getStr]; split <;> [rfl; (split <;> rfl)])

theorem step_WF {v : Vocab κ} (h : v.freq.WF) (o : Op κ) : (stepOp v o).freq.WF := by
  cases o with
  | inc k n => exact WF_increment h k n
  | set k n => exact Dict.WF_set h _ _
  | read k =>
    simp only [stepOp, getStr]
    split
    · exact h
    · split
      · exact Dict.WF_set h _ _
      · exact h

theorem step_get? {v : Vocab κ} (hp : v.dflt = false) (o : Op κ) (k : κ) :
    (stepOp v o).freq.get? k = specStep v.freq.get? o k := by
  cases o with
  | inc k' n => simp only [stepOp, get?_increment, specStep, eq_comm]
  | set k' n => simp only [stepOp, setItem, Dict.get?_set, specStep, eq_comm]
  | read k' => simp only [stepOp, getStr, specStep, hp]; split <;> simp

/-- **C16.** For a vocabulary built from any plain dict and any history of operations, every observation
agrees with the abstract map after the same history: reading an item (KeyError iff absent), membership,
number of items, total frequency (both over any duplicate-free list of the map's items), and the filter flag,
which is decided by the data at construction only. -/
theorem C16_vocab_refines_map (d : Dict κ Int) (hd : d.WF) (ops : List (Op κ)) :
    let v := ops.foldl stepOp (mk' d)
    let m := ops.foldl specStep d.get?
    (∀ k, (getStr v k).1 = match m k with | some n => .ok n | none => .error .keyError) ∧
    (∀ k, contains v k = (m k).isSome) ∧
    (∀ S : List κ, S.Nodup → (∀ k, k ∈ S ↔ (m k).isSome) →
      len v = S.length ∧ sumFreq v = (S.map (fun k => (m k).getD 0)).sum) ∧
    (v.filter = true ↔ d ≠ []) := by
  have key : ∀ (v : Vocab κ), v.freq.WF → v.dflt = false → ∀ ops : List (Op κ),
      (ops.foldl stepOp v).freq.WF ∧ (ops.foldl stepOp v).dflt = false ∧
      (ops.foldl stepOp v).filter = v.filter ∧
      (∀ k, (ops.foldl stepOp v).freq.get? k = ops.foldl specStep v.freq.get? k) := by
    intro v hv hp ops
    induction ops generalizing v with
    | nil => exact ⟨hv, hp, rfl, fun _ => rfl⟩
    | cons o ops ih =>
      have h1 := ih (stepOp v o) (step_WF hv o) ((step_dflt v o).1.trans hp)
      have e : (stepOp v o).freq.get? = specStep v.freq.get? o := funext (step_get? hp o)
      refine ⟨h1.1, h1.2.1, h1.2.2.1.trans (step_dflt v o).2, ?_⟩
      intro k
      have := h1.2.2.2 k
      rw [e] at this
      exact this
  obtain ⟨hw, hf, hfl, hg⟩ := key (mk' d) hd rfl ops
  intro v m
  have hg' : ∀ k, v.freq.get? k = m k := hg
  refine ⟨?_, ?_, ?_, ?_⟩
  · intro k
    simp only [getStr, hg']
    cases m k with
    | some n => rfl
    | none => rw [show v.dflt = false from hf]; rfl
  · intro k; simp only [contains, Dict.contains, hg']
  · intro S hS hm
    have := sum_eq_of_support hw hS (fun k => by rw [hg k]; exact hm k)
    refine ⟨this.2, this.1.trans ?_⟩
    exact congrArg List.sum (List.map_congr_left (fun k _ => by rw [hg k]; rfl))
  · rw [show v.filter = (mk' d).filter from hfl]
    cases d <;> simp [mk', Dict.keys]

/-- **C16**, vocabularies built from a `defaultdict(int)`: reads may insert zero entries, so membership and
length are not those of the abstract map, but every frequency read is. -/
theorem C16_defaultdict_reads (d : Dict κ Int) (ops : List (Op κ)) (k : κ) :
    (getStr (ops.foldl stepOp (mk' d true)) k).1 = .ok ((ops.foldl specStep d.get? k).getD 0) := by
  have key : ∀ (v : Vocab κ) (m : κ → Option Int), v.dflt = true →
      (∀ k, (v.freq.get? k).getD 0 = (m k).getD 0) → ∀ ops : List (Op κ),
      (ops.foldl stepOp v).dflt = true ∧
      (∀ k, ((ops.foldl stepOp v).freq.get? k).getD 0 = (ops.foldl specStep m k).getD 0) := by
    intro v m hp hm ops
    induction ops generalizing v m with
    | nil => exact ⟨hp, hm⟩
    | cons o ops ih =>
      refine ih _ _ ((step_dflt v o).1.trans hp) ?_
      intro k
      cases o with
      | inc k' n =>
        simp only [stepOp, get?_increment, specStep]
        by_cases h : k' = k
        · subst h; simp [hm]
        · rw [if_neg h, if_neg (Ne.symm h), hm]
      | set k' n =>
        simp only [stepOp, setItem, Dict.get?_set, specStep]
        by_cases h : k' = k
        · subst h; simp
        · rw [if_neg h, if_neg (Ne.symm h), hm]
      | read k' =>
        simp only [stepOp, getStr, specStep]
        split
        · exact hm k
        · next hn =>
          rw [if_pos hp, ← hm k]
          simp only [Dict.get?_set]
          by_cases h : k' = k
          · subst h; simp [hn]
          · rw [if_neg h]
  obtain ⟨hf, hg⟩ := key (mk' d true) d.get? rfl (fun _ => rfl) ops
  have := hg k
  unfold getStr
  cases h : (ops.foldl stepOp (mk' d true)).freq.get? k with
  | some n => rw [h] at this; simp only [Option.getD_some] at this; rw [this]
  | none => rw [h] at this; simp only [Option.getD_none] at this; rw [← this, if_pos hf]

/-- **C16**, the defect for `defaultdict`s: merely reading an absent item changes membership. -/
theorem C16_defaultdict_read_inserts :
    ∃ (d : Dict Nat Int) (k : Nat), contains (mk' d true) k = false ∧
      contains (stepOp (mk' d true) (.read k)) k = true :=
  ⟨[(1, 5)], 2, by decide, by decide⟩

/-- Non-vacuity: a non-empty history on a non-empty plain dict, with the observable results. -/
example : let v := [Op.inc 3 2, .inc 4 1, .set 3 7, .read 9].foldl stepOp (mk' [(3, 1), (5, 2)])
    Dict.WF ([(3, 1), (5, 2)] : Dict Nat Int) ∧ v.freq = [(3, 7), (5, 2), (4, 1)] ∧
      sumFreq v = 10 ∧ len v = 3 ∧ v.filter = true := by
  refine ⟨by simp [Dict.WF, Dict.keys], ?_⟩; decide

/-! ## C17: the ranking -/

/-- **C17.** The ranked view lists every (item, frequency) pair exactly once, in descending frequency with
ties in ascending item order; and it depends only on the mapping, not on the insertion order. -/
theorem C17_ranking (v : Vocab κ) (hv : v.freq.WF) :
    (dataframe v).Perm v.freq ∧
    (dataframe v).Pairwise (fun x y => y.2 < x.2 ∨ (x.2 = y.2 ∧ x.1 < y.1)) ∧
    ∀ w : Vocab κ, w.freq.WF → (∀ k, w.freq.get? k = v.freq.get? k) → dataframe w = dataframe v := by
  refine ⟨dataframe_perm v, ?_, ?_⟩
  · have h1 := dataframe_pairwise v
    have h2 : (dataframe v).Pairwise (fun x y => x.1 ≠ y.1) := by
      have := dataframe_keys_nodup hv
      rwa [List.Nodup, List.pairwise_map] at this
    refine (h1.and h2).imp ?_
    rintro x y ⟨h | h, hne⟩
    · exact Or.inl h
    · exact Or.inr ⟨h.1, lt_of_le_of_ne h.2 hne⟩
  · intro w hw hg
    have hp : w.freq.Perm v.freq := Dict.perm_of_get?_eq hw hv hg
    refine eq_of_perm_of_pairwise ?_
      ((dataframe_perm w).trans (hp.trans (dataframe_perm v).symm)) (dataframe_pairwise w)
      (dataframe_pairwise v)
    rintro ⟨a, m⟩ _ ⟨b, n⟩ _ h1 h2
    simp only at h1 h2
    rcases h1 with h1 | ⟨h1, h1'⟩
    · rcases h2 with h2 | ⟨h2, _⟩
      · omega
      · omega
    · rcases h2 with h2 | ⟨_, h2'⟩
      · omega
      · rw [le_antisymm h1' h2', h1]

/-- **C17** for `get_item_list`: each supported order lists every item once; alphabetic order is strictly
ascending (descending); an unsupported order is an error; the result depends only on the mapping. -/
theorem C17_item_list (v : Vocab κ) (hv : v.freq.WF) (desc : Bool) :
    (∃ l, getItemList v .alpha desc = .ok l ∧ l.Perm v.freq.keys ∧
      l.Pairwise (fun a b => if desc then b < a else a < b)) ∧
    (∃ l, getItemList v .freq desc = .ok l ∧ l.Perm v.freq.keys ∧
      l.Pairwise (fun a b =>
        let fa := (v.freq.get? a).getD 0; let fb := (v.freq.get? b).getD 0
        (if desc then fb < fa else fa < fb) ∨ (fa = fb ∧ a < b))) ∧
    getItemList v .other desc = .error .valueError := by
  refine ⟨?_, ?_, rfl⟩
  · cases desc with
    | true =>
      refine ⟨_, rfl, sortedByDesc_perm _ _, ?_⟩
      have h1 := sortedByDesc_pairwise id v.freq.keys
      have h2 : (sortedByDesc id v.freq.keys).Nodup := (sortedByDesc_perm _ _).nodup_iff.2 hv
      refine (h1.and h2).imp ?_
      rintro a b ⟨h, hn⟩
      simpa using lt_of_le_of_ne h (Ne.symm hn)
    | false =>
      refine ⟨_, rfl, sortedBy_perm _ _, ?_⟩
      have h1 := sortedBy_pairwise id v.freq.keys
      have h2 : (sortedBy id v.freq.keys).Nodup := (sortedBy_perm _ _).nodup_iff.2 hv
      refine (h1.and h2).imp ?_
      rintro a b ⟨h, hn⟩
      simpa using lt_of_le_of_ne h hn
  · have aux : ∀ (l : List (κ × Int)), l.Perm v.freq → ∀ R : Int → Int → Prop,
        l.Pairwise (fun x y => R x.2 y.2 ∨ (x.2 = y.2 ∧ x.1 ≤ y.1)) →
        (l.map Prod.fst).Pairwise (fun a b =>
          R ((v.freq.get? a).getD 0) ((v.freq.get? b).getD 0) ∨
            ((v.freq.get? a).getD 0 = (v.freq.get? b).getD 0 ∧ a < b)) := by
      intro l hp R hpw
      rw [List.pairwise_map]
      have hn : (l.map Prod.fst).Nodup := (hp.map Prod.fst).nodup_iff.2 hv
      rw [List.Nodup, List.pairwise_map] at hn
      refine List.Pairwise.imp_of_mem ?_ (hpw.and hn)
      rintro ⟨a, m⟩ ⟨b, n⟩ ha hb ⟨h, hne⟩
      have ea := Dict.get?_of_mem hv (hp.mem_iff.1 ha)
      have eb := Dict.get?_of_mem hv (hp.mem_iff.1 hb)
      simp only [ea, eb, Option.getD_some]
      rcases h with h | h
      · exact Or.inl h
      · exact Or.inr ⟨h.1, lt_of_le_of_ne h.2 hne⟩
    cases desc with
    | true =>
      refine ⟨_, rfl, ((sortedByDesc_perm _ _).trans (sortedBy_perm _ _)).map _, ?_⟩
      exact aux _ ((sortedByDesc_perm _ _).trans (sortedBy_perm _ _)) (fun a b => b < a)
        (sortedByDesc_sortedBy_pairwise Prod.snd Prod.fst v.freq)
    | false =>
      refine ⟨_, rfl, ((sortedBy_perm _ _).trans (sortedBy_perm _ _)).map _, ?_⟩
      exact aux _ ((sortedBy_perm _ _).trans (sortedBy_perm _ _)) (fun a b => a < b)
        (sortedBy_sortedBy_pairwise Prod.snd Prod.fst v.freq)

/-- Non-vacuity: two insertion orders of one mapping with a tie. -/
example : Dict.WF ([(2, 5), (1, 5), (9, 8)] : Dict Nat Int) ∧
    dataframe (mk' ([(2, 5), (1, 5), (9, 8)] : Dict Nat Int)) = [(9, 8), (1, 5), (2, 5)] ∧
    dataframe (mk' ([(9, 8), (1, 5), (2, 5)] : Dict Nat Int)) = [(9, 8), (1, 5), (2, 5)] := by
  refine ⟨by simp [Dict.WF, Dict.keys], ?_⟩; decide

/-! ## C18: slicing -/

/-- **C18.** `vocab[:k]` keeps `min k size` items with their frequencies, no dropped item is more frequent
than a kept one, and `vocab[:k]`, `vocab[k:]` split the vocabulary. -/
theorem C18_slice_top (v : Vocab κ) (hv : v.freq.WF) (k : Nat) :
    let top := select1 v (.slice none (some (k : Int)))
    let rest := select1 v (.slice (some (k : Int)) none)
    len top = min k (len v) ∧
    (∀ i, contains top i = true → top.freq.get? i = v.freq.get? i) ∧
    (∀ i j n m, contains top i = true → contains top j = false →
      v.freq.get? i = some n → v.freq.get? j = some m → m ≤ n) ∧
    (∀ i, contains v i = true ↔ (contains top i = true ∧ contains rest i = false) ∨
        (contains top i = false ∧ contains rest i = true)) ∧
    (∀ i, contains rest i = true → rest.freq.get? i = v.freq.get? i) := by
  intro top rest
  have et : top.freq = (dataframe v).take k := by
    rw [show top.freq = _ from select_slice_freq hv _ _, pySlice_none_nat]
  have er : rest.freq = (dataframe v).drop k := by
    rw [show rest.freq = _ from select_slice_freq hv _ _, pySlice_nat_none]
  have hnd := dataframe_keys_nodup hv
  have wt : Dict.WF top.freq := by
    rw [et]; exact ((List.take_sublist k _).map Prod.fst).nodup hnd
  have wr : Dict.WF rest.freq := by
    rw [er]; exact ((List.drop_sublist k _).map Prod.fst).nodup hnd
  have hsplit : top.freq ++ rest.freq = dataframe v := by rw [et, er, List.take_append_drop]
  have hmem : ∀ p, p ∈ top.freq ∨ p ∈ rest.freq ↔ p ∈ v.freq := by
    intro p; rw [← List.mem_append, hsplit]; exact (dataframe_perm v).mem_iff
  have hdisj : ∀ i, i ∈ Dict.keys top.freq → i ∉ Dict.keys rest.freq := by
    intro i h1 h2
    have : (Dict.keys top.freq ++ Dict.keys rest.freq).Nodup := by
      have := hnd
      rw [← hsplit, List.map_append] at this
      exact this
    exact (List.nodup_append.1 this).2.2 i h1 i h2 rfl
  have sub : ∀ w : Vocab κ, Dict.WF w.freq → (∀ p, p ∈ w.freq → p ∈ v.freq) →
      ∀ i, contains w i = true → w.freq.get? i = v.freq.get? i := by
    intro w hw hs i hi
    obtain ⟨n, hn⟩ := Option.isSome_iff_exists.1 hi
    rw [hn]; exact (Dict.get?_of_mem hv (hs _ (Dict.mem_of_get? hn))).symm
  refine ⟨?_, sub top wt (fun p hp => (hmem p).1 (Or.inl hp)), ?_, ?_,
    sub rest wr (fun p hp => (hmem p).1 (Or.inr hp))⟩
  · show (Dict.keys top.freq).length = min k (Dict.keys v.freq).length
    rw [et]
    simp only [Dict.keys, List.length_map, List.length_take, (dataframe_perm v).length_eq]
  · intro i j n m hi hj hn hm
    have hi' : (i, n) ∈ top.freq := by
      obtain ⟨n', hn'⟩ := Option.isSome_iff_exists.1 hi
      have := (sub top wt (fun p hp => (hmem p).1 (Or.inl hp)) i hi).symm
      rw [hn, hn'] at this
      cases this
      exact Dict.mem_of_get? hn'
    have hj' : (j, m) ∈ rest.freq := by
      rcases (hmem (j, m)).2 (Dict.mem_of_get? hm) with h | h
      · exfalso
        have : contains top j = true := by
          rw [contains, Dict.contains_iff]; exact List.mem_map.2 ⟨_, h, rfl⟩
        rw [hj] at this; cases this
      · exact h
    have hpw := dataframe_pairwise v
    rw [← hsplit, List.pairwise_append] at hpw
    rcases hpw.2.2 _ hi' _ hj' with h | h
    · exact le_of_lt h
    · exact le_of_eq h.1.symm
  · intro i
    have h1 : contains top i = true ↔ i ∈ Dict.keys top.freq := Dict.contains_iff _ _
    have h2 : contains rest i = true ↔ i ∈ Dict.keys rest.freq := Dict.contains_iff _ _
    have h3 : contains v i = true ↔ i ∈ Dict.keys v.freq := Dict.contains_iff _ _
    have h4 : i ∈ Dict.keys v.freq ↔ i ∈ Dict.keys top.freq ∨ i ∈ Dict.keys rest.freq := by
      simp only [Dict.keys, List.mem_map]
      constructor
      · rintro ⟨p, hp, rfl⟩
        rcases (hmem p).2 hp with h | h
        · exact Or.inl ⟨p, h, rfl⟩
        · exact Or.inr ⟨p, h, rfl⟩
      · rintro (⟨p, hp, rfl⟩ | ⟨p, hp, rfl⟩)
        · exact ⟨p, (hmem p).1 (Or.inl hp), rfl⟩
        · exact ⟨p, (hmem p).1 (Or.inr hp), rfl⟩
    simp only [← Bool.not_eq_true, h1, h2, h3, h4]
    have := hdisj i
    by_cases ha : i ∈ Dict.keys top.freq <;> by_cases hb : i ∈ Dict.keys rest.freq <;> simp_all

example : Dict.WF ([(2, 5), (1, 5), (9, 8)] : Dict Nat Int) ∧
    (select1 (mk' ([(2, 5), (1, 5), (9, 8)] : Dict Nat Int)) (.slice none (some 2))).freq
      = [(9, 8), (1, 5)] := by
  refine ⟨by simp [Dict.WF, Dict.keys], ?_⟩; decide

/-- Specification: how many items of the vocabulary come before item `i` of frequency `n`, i.e. are more frequent, or as
frequent and smaller. -/
def rankOf (v : Vocab κ) (i : κ) (n : Int) : Nat :=
  v.freq.countP (fun p => decide (n < p.2 ∨ (p.2 = n ∧ p.1 < i)))

/-- Specification: position `p` of `len` positions is not before the slice bound `a` (negative bounds count from the
end). -/
def NotBefore (len p : Nat) : Option Int → Prop
  | none => True
  | some a => if a < 0 then a ≤ (p : Int) - len else a ≤ p

/-- Specification: position `p` of `len` positions is before the slice bound `b`. -/
def Before (len p : Nat) : Option Int → Prop
  | none => True
  | some b => if b < 0 then (p : Int) - len < b else p < b

theorem mem_pySlice {α : Type} (xs : List α) (a b : Option Int) (x : α) :
    x ∈ pySlice xs a b ↔ ∃ p : Nat, xs[p]? = some x ∧ NotBefore xs.length p a ∧ Before xs.length p b := by
  unfold pySlice
  simp only [List.mem_iff_getElem?, List.getElem?_drop, List.getElem?_take]
  have hlt : ∀ {q : Nat}, xs[q]? = some x → q < xs.length := by
    intro q h; by_contra hc; rw [List.getElem?_eq_none (by omega)] at h; cases h
  constructor
  · rintro ⟨i, hi⟩
    split at hi
    · next hb =>
      refine ⟨_, hi, ?_, ?_⟩
      · cases a with
        | none => trivial
        | some a =>
          have := hlt hi
          simp only [NotBefore, Option.map_some, Option.getD_some] at hb this ⊢
          split_ifs <;> split_ifs at hb this <;> omega
      · have := hlt hi
        cases b with
        | none => trivial
        | some b =>
          simp only [Before, Option.map_some, Option.getD_some] at hb this ⊢
          split_ifs with h0
          · rw [if_pos h0] at hb; omega
          · rw [if_neg h0] at hb; omega
    · cases hi
  · rintro ⟨p, hp, ha, hb⟩
    have hp' := hlt hp
    have h1 : (a.map (fun i => (if i < 0 then max (i + (xs.length : Int)) 0 else min i xs.length).toNat)).getD 0 ≤ p := by
      cases a with
      | none => simp
      | some a =>
        simp only [NotBefore, Option.map_some, Option.getD_some] at ha ⊢
        split_ifs with h0
        · rw [if_pos h0] at ha; omega
        · rw [if_neg h0] at ha; omega
    have h2 : p < (b.map (fun i => (if i < 0 then max (i + (xs.length : Int)) 0 else min i xs.length).toNat)).getD xs.length := by
      cases b with
      | none => simpa using hp'
      | some b =>
        simp only [Before, Option.map_some, Option.getD_some] at hb ⊢
        split_ifs with h0
        · rw [if_pos h0] at hb; omega
        · rw [if_neg h0] at hb; omega
    refine ⟨p - (a.map (fun i => (if i < 0 then max (i + (xs.length : Int)) 0 else min i xs.length).toNat)).getD 0, ?_⟩
    rw [Nat.add_sub_cancel' h1, if_pos h2, hp]

theorem countP_before {α : Type} (r : α → α → Prop) [DecidableRel r] (hirr : ∀ x, ¬ r x x)
    (hasym : ∀ x y, r x y → ¬ r y x) {l : List α} (hl : l.Pairwise r) {p : Nat} {x : α} (hp : l[p]? = some x) :
    l.countP (fun y => decide (r y x)) = p := by
  induction l generalizing p with
  | nil => simp at hp
  | cons a l ih =>
    rw [List.pairwise_cons] at hl
    cases p with
    | zero =>
      simp only [List.getElem?_cons_zero, Option.some.injEq] at hp
      subst hp
      rw [List.countP_eq_zero]
      intro y hy
      simp only [decide_eq_true_eq]
      rcases List.mem_cons.1 hy with rfl | hy
      · exact hirr _
      · exact hasym _ _ (hl.1 y hy)
    | succ p =>
      simp only [List.getElem?_cons_succ] at hp
      rw [List.countP_cons_of_pos (by simpa using hl.1 x (List.mem_of_getElem? hp)), ih hl.2 hp]

theorem dataframe_rank {v : Vocab κ} {p : Nat} {i : κ} {n : Int} (hp : (dataframe v)[p]? = some (i, n))
    (hv : v.freq.WF) : rankOf v i n = p := by
  unfold rankOf
  rw [← (dataframe_perm v).countP_eq]
  refine countP_before (fun x y : κ × Int => y.2 < x.2 ∨ (x.2 = y.2 ∧ x.1 < y.1)) ?_ ?_ ?_ hp
  · rintro x (h | h)
    · exact lt_irrefl _ h
    · exact lt_irrefl _ h.2
  · rintro x y (h | h) (h' | h')
    · omega
    · omega
    · omega
    · exact lt_asymm h.2 h'.2
  · have hnd := dataframe_keys_nodup hv
    have hpw := dataframe_pairwise v
    rw [List.Nodup, List.pairwise_map] at hnd
    refine (hpw.and hnd).imp ?_
    rintro x y ⟨h | h, hne⟩
    · exact Or.inl h
    · exact Or.inr ⟨h.1, lt_of_le_of_ne h.2 hne⟩

/-- **C18.** `vocab[a:b]`, with optional and possibly negative bounds, keeps exactly the items whose rank lies in the
slice, with their frequencies. -/
theorem C18_slice_any (v : Vocab κ) (hv : v.freq.WF) (a b : Option Int) (i : κ) (n : Int) :
    (select1 v (.slice a b)).freq.get? i = some n ↔
      v.freq.get? i = some n ∧ NotBefore (len v) (rankOf v i n) a ∧ Before (len v) (rankOf v i n) b := by
  have hlen : len v = (dataframe v).length := by
    unfold len; rw [(dataframe_perm v).length_eq, Dict.keys, List.length_map]
  have hwf : Dict.WF (select1 v (.slice a b)).freq := by
    rw [select_slice_freq hv]
    exact ((pySlice_sublist _ a b).map Prod.fst).nodup (dataframe_keys_nodup hv)
  rw [Dict.get?_eq_some_iff hwf, Dict.get?_eq_some_iff hv, select_slice_freq hv, mem_pySlice, hlen]
  constructor
  · rintro ⟨p, hp, ha, hb⟩
    rw [dataframe_rank hp hv]
    exact ⟨(dataframe_perm v).mem_iff.1 (List.mem_of_getElem? hp), ha, hb⟩
  · rintro ⟨hm, ha, hb⟩
    obtain ⟨p, hp⟩ := List.mem_iff_getElem?.1 ((dataframe_perm v).mem_iff.2 hm)
    rw [dataframe_rank hp hv] at ha hb
    exact ⟨p, hp, ha, hb⟩

example : (select1 (mk' ([(2, 5), (1, 5), (9, 8)] : Dict Nat Int)) (.slice (some (-2)) (some (-1)))).freq = [(1, 5)] ∧
    rankOf (mk' ([(2, 5), (1, 5), (9, 8)] : Dict Nat Int)) 1 5 = 1 := by
  constructor <;> decide

/-! ## C19: selection -/

/-- **C19.** Selecting by a list of items: exactly the requested items that occur, with their frequency. -/
theorem C19_select_items (v : Vocab κ) (hv : v.freq.WF) (l : List κ) (i : κ) :
    (select1 v (.items l)).freq.get? i = if i ∈ l then v.freq.get? i else none := by
  cases l with
  | nil => simp [select1, mk']
  | cons x l =>
    simp only [select1, selectByItems, mk', Dict.get?_filter hv]
    cases v.freq.get? i <;> simp [Option.filter]

/-- **C19.** `vocab[vocab.freq op n]` has exactly the items whose frequency satisfies the comparison. -/
theorem C19_select_compare (v : Vocab κ) (hv : v.freq.WF) (op : Cmp) (n : Int) (i : κ) :
    (select1 v (.items (compare v op n))).freq.get? i =
      (v.freq.get? i).filter (fun f => op.holds f n) := by
  rw [C19_select_items v hv]
  have : i ∈ compare v op n ↔ ∃ f, v.freq.get? i = some f ∧ op.holds f n = true := by
    simp only [compare, List.mem_map, List.mem_filter]
    constructor
    · rintro ⟨⟨k, f⟩, ⟨hm, hh⟩, rfl⟩; exact ⟨f, Dict.get?_of_mem hv hm, hh⟩
    · rintro ⟨f, hf, hh⟩; exact ⟨(i, f), ⟨Dict.mem_of_get? hf, hh⟩, rfl⟩
  by_cases h : i ∈ compare v op n
  · obtain ⟨f, hf, hh⟩ := this.1 h
    rw [if_pos h, hf]; simp [Option.filter, hh]
  · rw [if_neg h]
    cases hf : v.freq.get? i with
    | none => rfl
    | some f =>
      have : op.holds f n ≠ true := fun hh => h (this.2 ⟨f, hf, hh⟩)
      simp [Option.filter, this]

/-- What the comparisons mean. -/
def Cmp.means : Cmp → Int → Int → Prop
  | .lt, a, b => a < b
  | .le, a, b => a ≤ b
  | .eq, a, b => a = b
  | .gt, a, b => b < a
  | .ge, a, b => b ≤ a

/-- **C19**: the items that a comparison selects, with the meaning of the comparison. -/
theorem C19_compare_means (v : Vocab κ) (hv : v.freq.WF) (op : Cmp) (n : Int) (i : κ) (f : Int) :
    (select1 v (.items (compare v op n))).freq.get? i = some f ↔ v.freq.get? i = some f ∧ op.means f n := by
  rw [C19_select_compare v hv]
  cases v.freq.get? i with
  | none => simp
  | some g =>
    rw [Option.filter_eq_some_iff]
    refine and_congr_right fun hg => ?_
    cases op <;> simp [Cmp.holds, Cmp.means]

/-- **C19.** Selecting by a list of frequencies. -/
theorem C19_select_freqs (v : Vocab κ) (hv : v.freq.WF) (l : List Int) (i : κ) :
    (select1 v (.freqs l)).freq.get? i = (v.freq.get? i).filter (fun f => decide (f ∈ l)) := by
  cases l with
  | nil => cases h : v.freq.get? i <;> simp [select1, mk', Option.filter]
  | cons x l => simp only [select1, selectByFreqs, mk', Dict.get?_filter hv]

/-- A selection that names a set of (item, frequency) pairs, i.e. not a slice. -/
def Sel.keeps : Sel κ → κ → Int → Bool
  | .items l, i, _ => decide (i ∈ l)
  | .freqs l, _, f => decide (f ∈ l)
  | .slice _ _, _, _ => true

/-- **C19.** A tuple of item/frequency conditions gives the intersection of the conditions. -/
theorem C19_select_tuple (v : Vocab κ) (hv : v.freq.WF) (ss : List (Sel κ))
    (hs : ∀ s ∈ ss, ∀ a b, s ≠ .slice a b) (i : κ) :
    (selectTuple v ss).freq.get? i =
      (v.freq.get? i).filter (fun f => ss.all (fun s => s.keeps i f)) := by
  induction ss generalizing v with
  | nil => cases h : v.freq.get? i <;> simp [selectTuple, h, Option.filter]
  | cons s ss ih =>
    have hw : (select1 v s).freq.WF := by
      cases s with
      | items l => cases l <;> [exact Dict.WF_nil; exact Dict.WF_filter hv _]
      | freqs l => cases l <;> [exact Dict.WF_nil; exact Dict.WF_filter hv _]
      | slice a b => exact Dict.WF_ofPairs _
    have h1 : (select1 v s).freq.get? i = (v.freq.get? i).filter (fun f => s.keeps i f) := by
      cases s with
      | items l =>
        rw [C19_select_items v hv]
        cases v.freq.get? i <;> by_cases h : i ∈ l <;> simp [Option.filter, Sel.keeps, h]
      | freqs l => rw [C19_select_freqs v hv]; rfl
      | slice a b => exact absurd rfl (hs _ (by simp) a b)
    have := ih (select1 v s) hw (fun t ht => hs t (by simp [ht]))
    show (selectTuple (select1 v s) ss).freq.get? i = _
    rw [this, h1]
    cases v.freq.get? i with
    | none => rfl
    | some f =>
      by_cases hk : s.keeps i f = true <;> simp [Option.filter, hk]

/-- **C19.** `subvocab` has exactly the requested items; absent ones get frequency 0. -/
theorem C19_subvocab (v : Vocab κ) (l : List κ) (i : κ) :
    (subvocab v l).freq.get? i = if i ∈ l then some ((v.freq.get? i).getD 0) else none := by
  have key : ∀ (l : List κ) (d : Dict κ Int),
      (l.foldl (fun d it => d.set it ((v.freq.get? it).getD 0)) d).get? i =
        if i ∈ l then some ((v.freq.get? i).getD 0) else d.get? i := by
    intro l
    induction l with
    | nil => simp
    | cons x l ih =>
      intro d
      rw [List.foldl_cons, ih, Dict.get?_set]
      by_cases h : i ∈ l
      · simp [h]
      · by_cases h2 : x = i
        · subst h2; simp
        · simp [h, h2, Ne.symm h2]
  simpa [subvocab, mk'] using key l []

/-- Non-vacuity for the selection theorems. -/
example : let v := mk' ([(1, 3), (2, 1), (5, 4)] : Dict Nat Int)
    Dict.WF v.freq ∧ (select1 v (.items (compare v .ge 3))).freq = [(1, 3), (5, 4)] ∧
    (selectTuple v [.items (compare v .ge 3), .items [5, 9]]).freq = [(5, 4)] ∧
    (subvocab v [5, 9]).freq = [(5, 4), (9, 0)] := by
  refine ⟨by simp [Dict.WF, Dict.keys, mk'], ?_⟩; decide

/-! ## C20: plain files -/

open Plain in
/-- **C20 (partial).**  The full claim is `∀ v, v.freq.WF → ∃ w, load (save v) = .ok w ∧ ∀ k, w.freq.get? k =
v.freq.get? k`; it is false (`C20_false`).  This theorem says exactly when it holds: if and only if every item
is non-empty, does not start with white space and has no tab and no line boundary.
Missing: float frequencies, byte encodings. -/
theorem C20_plain_round_trip_partial (v : Vocab Str) (hv : v.freq.WF) :
    (∃ w, load (save v) = .ok w ∧ ∀ k, w.freq.get? k = v.freq.get? k) ↔
      ∀ k, contains v k = true →
        (∃ c cs, k = c :: cs ∧ isSpace c = false) ∧ '\t' ∉ k ∧ ∀ c ∈ k, isBreak c = false := by
  constructor
  · rintro ⟨w, hw, he⟩ k hk
    have : k ∈ w.freq.keys := by
      rw [← Dict.get?_isSome_iff, he]; exact hk
    exact load_good hw k this
  · intro h
    have hg : ∀ p ∈ dataframe v, Good p.1 := by
      intro p hp
      have hp' := (dataframe_perm v).mem_iff.1 hp
      exact h p.1 ((Dict.contains_iff _ _).2 (List.mem_map.2 ⟨p, hp', rfl⟩))
    refine ⟨mk' (dataframe v), ?_, ?_⟩
    · have e : (lines [] (save v)).foldlM loadLine [] = .ok (dataframe v) := by
        rw [save, lines_save _ hg, load_rows _ hg]
        exact congrArg _ (ofPairs_eq_of_nodup' _ (dataframe_keys_nodup hv))
      simp only [load, e]; rfl
    · intro k
      exact Dict.get?_perm (dataframe_keys_nodup hv) (dataframe_perm v) k

open Plain in
/-- **C20**: when every item can be carried, the reloaded vocabulary lists its items in ranking order and is a
fixed point: saving it again writes the same text. -/
theorem C20_plain_stable (v : Vocab Str) (hv : v.freq.WF) (h : ∀ k, contains v k = true → Good k) :
    ∃ w, load (save v) = .ok w ∧ w.freq = dataframe v ∧ save w = save v := by
  have hg : ∀ p ∈ dataframe v, Good p.1 := by
    intro p hp
    have hp' := (dataframe_perm v).mem_iff.1 hp
    exact h p.1 ((Dict.contains_iff _ _).2 (List.mem_map.2 ⟨p, hp', rfl⟩))
  have e : (lines [] (save v)).foldlM loadLine [] = .ok (dataframe v) := by
    rw [save, lines_save _ hg, load_rows _ hg]
    exact congrArg _ (ofPairs_eq_of_nodup' _ (dataframe_keys_nodup hv))
  refine ⟨mk' (dataframe v), by simp only [load, e]; rfl, rfl, ?_⟩
  have : dataframe (mk' (dataframe v)) = dataframe v :=
    (C17_ranking v hv).2.2 (mk' (dataframe v)) (dataframe_keys_nodup hv)
      (fun k => Dict.get?_perm (dataframe_keys_nodup hv) (dataframe_perm v) k)
  simp only [save, this]

open Plain in
/-- **C20 is false** in general: the item `" a"` comes back as `"a"`. -/
theorem C20_false : ∃ v : Vocab Str, v.freq.WF ∧
    ¬ ∃ w, load (save v) = .ok w ∧ ∀ k, w.freq.get? k = v.freq.get? k := by
  refine ⟨mk' [([' ', 'a'], 3)], by simp [Dict.WF, Dict.keys, mk'], ?_⟩
  rw [C20_plain_round_trip_partial _ (by simp [Dict.WF, Dict.keys, mk'])]
  intro h
  obtain ⟨c, cs, h1, h2⟩ := (h [' ', 'a'] (by decide)).1
  injection h1 with h1 _
  subst h1
  revert h2; decide

open Plain in
/-- Non-vacuity: a vocabulary with a negative and a multi-digit frequency, and an item with an inner space. -/
example : let v : Vocab Str := mk' [(['a', ' ', 'b'], 12), (['c'], -3)]
    v.freq.WF ∧ (∀ p ∈ v.freq, Good p.1) ∧ save v = "a b\t12\nc\t-3\n".toList := by
  refine ⟨by simp [Dict.WF, Dict.keys, mk'], by decide, by decide⟩

end Verif.Vocab
