import Verif.Flow.Retrieve
import Verif.Flow.Sim
import Verif.Window.Props
import Verif.Engine.Props
import Verif.Matrix.PropsToken

/-!
# Lemmas about token retrieval
-/

set_option linter.unusedSectionVars false

namespace Verif.Flow
open Verif.Py Verif.Vocab Verif.Corpus Verif.Window Verif.Engine Verif.Matrix

variable {ℓ μ κ φ : Type} [LinearOrder κ]

/-! ### Dicts over a list of keys -/

theorem keys_table {ν : Type} (qs : List κ) (g : κ → ν) : Dict.keys (qs.map (fun q => (q, g q))) = qs := by
  unfold Dict.keys; simp [List.map_map, Function.comp_def]

theorem get?_table {ν : Type} (qs : List κ) (g : κ → ν) (k : κ) :
    Dict.get? (qs.map (fun q => (q, g q))) k = if k ∈ qs then some (g k) else none := by
  induction qs with
  | nil => simp
  | cons q qs ih =>
    rw [List.map_cons, Dict.get?_cons, ih]
    by_cases h : q = k
    · simp [h]
    · simp [h, Ne.symm h]

theorem eq_table {ν : Type} {qs : List κ} (hq : qs.Nodup) {d : Dict κ ν} (hk : Dict.keys d = qs) {g : κ → ν}
    (hg : ∀ k ∈ qs, Dict.get? d k = some (g k)) : d = qs.map (fun q => (q, g q)) := by
  induction qs generalizing d with
  | nil => simpa [Dict.keys] using hk
  | cons q qs ih =>
    cases d with
    | nil => simp at hk
    | cons p d =>
      rw [Dict.keys_cons, List.cons.injEq] at hk
      obtain ⟨rfl, hk⟩ := hk
      obtain ⟨h1, h2⟩ := List.nodup_cons.1 hq
      have e := hg p.1 (by simp)
      rw [Dict.get?_cons, if_pos rfl] at e
      rw [List.map_cons]
      congr 1
      · obtain ⟨a, b⟩ := p; simp only [Option.some.injEq] at e; rw [e]
      · refine ih h2 hk (fun k hk' => ?_)
        have := hg k (by simp [hk'])
        have hne : p.1 ≠ k := fun h => h1 (by rw [h]; exact hk')
        rw [Dict.get?_cons, if_neg hne] at this
        exact this

/-! ### Tagged files -/

/-- An item with the identifier of its file. -/
def tag (fid : φ) (x : μ × Nat) : (φ × μ) × Nat := ((fid, x.1), x.2)

theorem segsFrom_tagged (f : Formatter ℓ μ κ) (fid : φ) (file : List ℓ) : ∀ (cur : List (μ × Nat)) (lid : Nat),
    segsFrom (tagged f fid) (cur.map (tag fid)) lid file = (segsFrom f cur lid file).map (List.map (tag fid)) := by
  induction file with
  | nil => intro cur lid; rw [segsFrom_nil, segsFrom_nil]; rfl
  | cons line file ih =>
    intro cur lid
    rw [segsFrom_cons, segsFrom_cons]
    have h1 : (tagged f fid).matchLine line = (f.matchLine line).map (fun m => (fid, m)) := rfl
    have h2 : (tagged f fid).isSep line = f.isSep line := rfl
    rw [h1, h2]
    cases f.matchLine line with
    | some m =>
      simp only [Option.map_some]
      have := ih (cur ++ [(m, lid + 1)]) (lid + 1)
      rw [List.map_append] at this
      exact this
    | none =>
      simp only [Option.map_none]
      split
      · rw [List.map_cons, ← ih [] (lid + 1)]; rfl
      · exact ih cur (lid + 1)

theorem segments_tagged (f : Formatter ℓ μ κ) (fid : φ) (file : List ℓ) :
    segments (tagged f fid) file = (segments f file).map (List.map (tag fid)) := by
  rw [segments_eq, segments_eq]
  exact segsFrom_tagged f fid file [] 0

/-! ### One file -/

theorem updateFile_tok_keys (f : Formatter ℓ μ κ) (colv : Option (Vocab κ)) (L R : Nat) {d d' : Dict κ (List (Token μ))}
    {file : List ℓ} (h : updateFile f L R (tokCallbacks f colv) d file = .ok d') : Dict.keys d' = Dict.keys d := by
  have hmatch : ∀ (d : Dict κ (List (Token μ))) (w : Win (μ × Nat)), Dict.keys (tokMatch f colv d w) = Dict.keys d := by
    intro d w
    unfold tokMatch
    cases w.node with
    | none => rfl
    | some x =>
      simp only
      cases hg : d.get? (f.getType x.1) with
      | none => rfl
      | some toks =>
        simp only
        rw [Dict.keys_set, if_pos]
        rw [← Dict.get?_isSome_iff, hg]; rfl
  have hseg : ∀ (xs : List (μ × Nat)) (N : Nat) (d : Dict κ (List (Token μ))),
      Dict.keys (segFold (tokMatch f colv) L R xs d N) = Dict.keys d := by
    intro xs N d
    induction N with
    | zero => rfl
    | succ N ih => rw [segFold_succ, hmatch, ih]
  rw [run_file f L R (tokCallbacks f colv) (tokMatch_ignores f colv) (tokSeg (tokMatch f colv) L R)
    (fun d xs => tokEnd_eq (tokMatch_ignores f colv) L R xs d)] at h
  generalize segments f file = segs at h
  induction segs generalizing d with
  | nil => cases h; rfl
  | cons xs segs ih =>
    rw [List.foldlM_cons] at h
    unfold tokSeg at h
    by_cases h0 : R = 0 ∧ xs = []
    · rw [if_pos h0] at h; cases h
    · rw [if_neg h0] at h
      have := ih h
      rw [this, hseg]

/-- The tokens of a type in a file. -/
def found (f : Formatter ℓ μ κ) (L R : Nat) (colv : Option (Vocab κ)) (file : φ × List ℓ) (k : κ) :
    List (Token (φ × μ)) :=
  (segments (tagged f file.1) file.2).flatMap (tokensOf (tagged f file.1) (keepOf colv) L R k)

theorem tokUpd_table (f : Formatter ℓ μ κ) (L R : Nat) (hR : R ≠ 0) (colv : Option (Vocab κ)) {qs : List κ} (hq : qs.Nodup)
    (g : κ → List (Token (φ × μ))) (file : φ × List ℓ) :
    tokUpd f L R colv (qs.map (fun q => (q, g q))) file = qs.map (fun q => (q, g q ++ found f L R colv file q)) := by
  obtain ⟨d', h1, h2⟩ := (C11_tokens_partial (tagged f file.1) L R colv file.2).1 (fun h => hR h.1)
    (qs.map (fun q => (q, g q)))
  unfold tokUpd
  rw [h1]
  simp only
  refine eq_table hq ?_ ?_
  · rw [updateFile_tok_keys _ _ _ _ h1, keys_table]
  · intro k hk
    rw [h2, get?_table, if_pos hk]
    rfl

/-! ### The whole run -/

/-- A dict given by the token lists of all types. -/
def table (qs : List κ) (g : κ → List (Token (φ × μ))) : Toks φ μ κ := qs.map (fun q => (q, g q))

def tableRes (qs : List κ) : TokRes (κ → List (Token (φ × μ))) → TokRes (Toks φ μ κ)
  | .minus1 => .minus1
  | .toks g => .toks (table qs g)

theorem retrieve_sim (f : Formatter ℓ μ κ) (L R : Nat) (hR : R ≠ 0) (colv : Vocab κ) {qs : List κ} (hq : qs.Nodup) :
    Simulates (tokProg (found (φ := φ) f L R (handlerVocab colv))) (retrieveProg f L R colv qs)
      (fun a => (a.1, table qs a.2)) (tableRes qs) := by
  refine ⟨rfl, ?_, fun a => rfl⟩
  rintro ⟨b, g⟩ file
  unfold retrieveProg tokenProg tokProg tokenProg
  simp only [table]
  rw [tokUpd_table f L R hR _ hq g file]
  cases b <;> rfl

theorem foldl_add_keys {ps acc : Toks φ μ κ} (h : ∀ k ∈ Dict.keys ps, k ∈ Dict.keys acc) :
    Dict.keys (ps.foldl (fun acc p => acc.set p.1 ((acc.get? p.1).getD [] ++ p.2)) acc) = Dict.keys acc := by
  induction ps generalizing acc with
  | nil => rfl
  | cons p ps ih =>
    rw [List.foldl_cons]
    have hk : Dict.keys (Dict.set acc p.1 ((acc.get? p.1).getD [] ++ p.2)) = Dict.keys acc := by
      rw [Dict.keys_set, if_pos (h p.1 (by simp))]
    rw [ih (by intro k hk'; rw [hk]; exact h k (by simp [hk'])), hk]

theorem foldl_add_get? {ps acc : Toks φ μ κ} (hw : Dict.WF ps) (k : κ) :
    Dict.get? (ps.foldl (fun acc p => acc.set p.1 ((acc.get? p.1).getD [] ++ p.2)) acc) k =
      match Dict.get? ps k with
      | some v => some ((Dict.get? acc k).getD [] ++ v)
      | none => Dict.get? acc k := by
  induction ps generalizing acc with
  | nil => rfl
  | cons p ps ih =>
    obtain ⟨h1, h2⟩ := List.nodup_cons.1 (show (p.1 :: Dict.keys ps).Nodup from hw)
    rw [List.foldl_cons, ih h2, Dict.get?_cons]
    by_cases h : p.1 = k
    · have hn : Dict.get? ps k = none := (Dict.get?_eq_none_iff _ _).2 (h ▸ h1)
      rw [hn, if_pos h]
      simp only
      rw [Dict.get?_set, if_pos h, h]
    · rw [if_neg h]
      rw [Dict.get?_set, if_neg h]

theorem foldl_add_nil (qs : List κ) (hq : qs.Nodup) (g : κ → List (Token (φ × μ))) :
    addRes [] (.toks (table qs g)) = table qs g := by
  have hadd : ∀ (ps acc : Toks φ μ κ), Dict.WF (acc ++ ps) →
      ps.foldl (fun acc p => acc.set p.1 ((acc.get? p.1).getD [] ++ p.2)) acc = acc ++ ps := by
    intro ps
    induction ps with
    | nil => intro acc _; simp
    | cons p ps ih =>
      intro acc hw
      have hn : p.1 ∉ Dict.keys acc := by
        unfold Dict.WF Dict.keys at hw
        rw [List.map_append, List.nodup_append] at hw
        intro hm
        exact hw.2.2 _ hm _ (by simp) rfl
      have hs : Dict.set acc p.1 ((Dict.get? acc p.1).getD [] ++ p.2) = acc ++ [p] := by
        rw [(Dict.get?_eq_none_iff _ _).2 hn]
        clear hw ih
        induction acc with
        | nil => simp [Dict.set]
        | cons a acc ih =>
          rw [Dict.keys_cons, List.mem_cons, not_or] at hn
          have := ih hn.2
          obtain ⟨a1, a2⟩ := a
          simp only [Dict.set, if_neg (Ne.symm hn.1)]
          rw [this]; rfl
      rw [List.foldl_cons, hs, ih _ (by rw [List.append_assoc]; exact hw), List.append_assoc]
      rfl
  have := hadd (table qs g) [] (by
    rw [List.nil_append]; unfold Dict.WF; rw [table, keys_table]; exact hq)
  rw [List.nil_append] at this
  exact this

theorem addRes_table {qs : List κ} (hq : qs.Nodup) (a g : κ → List (Token (φ × μ))) :
    addRes (table qs a) (.toks (table qs g)) = table qs (fun k => a k ++ g k) := by
  unfold addRes
  refine eq_table hq ?_ ?_
  · rw [foldl_add_keys, table, keys_table]
    intro k hk
    rw [table, keys_table] at hk ⊢; exact hk
  · intro k hk
    rw [foldl_add_get? (by unfold Dict.WF; rw [table, keys_table]; exact hq)]
    rw [table, table, get?_table, get?_table, if_pos hk, if_pos hk]
    rfl

theorem mergeToks_cons (r : TokRes (κ → List (Token (φ × μ)))) (rs : List (TokRes (κ → List (Token (φ × μ))))) (k : κ) :
    mergeToks (r :: rs) k = (match r with | .toks g => g k | .minus1 => []) ++ mergeToks rs k := by
  cases r <;> simp [mergeToks]

theorem foldl_addRes {qs : List κ} (hq : qs.Nodup) (rs : List (TokRes (κ → List (Token (φ × μ)))))
    (a : κ → List (Token (φ × μ))) :
    (rs.map (tableRes qs)).foldl addRes (table qs a) = table qs (fun k => a k ++ mergeToks rs k) := by
  induction rs generalizing a with
  | nil => simp [mergeToks]
  | cons r rs ih =>
    rw [List.map_cons, List.foldl_cons]
    cases r with
    | minus1 =>
      have : addRes (table qs a) (tableRes qs (.minus1 : TokRes (κ → List (Token (φ × μ))))) = table qs a := rfl
      rw [this, ih]
      congr 1
    | toks g =>
      have : addRes (table qs a) (tableRes qs (.toks g)) = table qs (fun k => a k ++ g k) := addRes_table hq a g
      rw [this, ih]
      congr 1
      funext k
      rw [mergeToks_cons, List.append_assoc]

/-- All tokens of the merged results. -/
theorem mergeRes_flatMap {β : Type} {qs : List κ} (hq : qs.Nodup) (rs : List (TokRes (κ → List (Token (φ × μ)))))
    (h : Token (φ × μ) → β) :
    (mergeRes (rs.map (tableRes qs))).flatMap (fun p => p.2.map h) = qs.flatMap (fun k => (mergeToks rs k).map h) := by
  have htab : ∀ g : κ → List (Token (φ × μ)),
      (table qs g).flatMap (fun p => p.2.map h) = qs.flatMap (fun k => (g k).map h) := by
    intro g; unfold table; rw [List.flatMap_map]
  unfold mergeRes
  induction rs with
  | nil => simp [mergeToks]
  | cons r rs ih =>
    rw [List.map_cons, List.foldl_cons]
    cases r with
    | minus1 =>
      have : addRes ([] : Toks φ μ κ) (tableRes qs (.minus1 : TokRes (κ → List (Token (φ × μ))))) = [] := rfl
      rw [this, ih]
      congr 1
    | toks g =>
      have : addRes ([] : Toks φ μ κ) (tableRes qs (.toks g)) = table qs g := foldl_add_nil qs hq g
      rw [this, foldl_addRes hq, htab]
      congr 1

/-! ### Positions -/

/-- The collocate `c` stands at the signed distance `d` from position `i`, within the spans. -/
def InWindow (L R : Nat) (cs : List κ) (i : Nat) (c : κ) (d : Int) : Prop :=
  ∃ j : Nat, cs[j]? = some c ∧ j ≠ i ∧ i ≤ j + L ∧ j ≤ i + R ∧ d = (j : Int) - i

/-- The collocate `c` is kept and stands within the spans at a place that is the `d`-th one counted from position `i`,
when only kept collocates are counted. -/
def KeptAt (keep : κ → Bool) (L R : Nat) (cs : List κ) (i : Nat) (c : κ) (d : Int) : Prop :=
  keep c = true ∧ ∃ j : Nat, cs[j]? = some c ∧
    ((j < i ∧ i ≤ j + L ∧ d = -((((cs.take i).drop j).countP keep : Nat) : Int)) ∨
     (i < j ∧ j ≤ i + R ∧ d = (((cs.take (j + 1)).drop (i + 1)).countP keep : Nat)))

theorem filter_getElem? {α : Type} (p : α → Bool) (l : List α) (n : Nat) (y : α) :
    (l.filter p)[n]? = some y ↔ ∃ k : Nat, l[k]? = some y ∧ p y = true ∧ n = (l.take k).countP p := by
  induction l generalizing n with
  | nil => simp
  | cons a l ih =>
    rw [List.filter_cons]
    by_cases ha : p a = true
    · rw [if_pos ha]
      cases n with
      | zero =>
        rw [List.getElem?_cons_zero, Option.some.injEq]
        constructor
        · rintro rfl; exact ⟨0, rfl, ha, rfl⟩
        · rintro ⟨k, h1, h2, h3⟩
          cases k with
          | zero => simpa using h1
          | succ k => rw [List.take_succ_cons, List.countP_cons, if_pos ha] at h3; omega
      | succ n =>
        rw [List.getElem?_cons_succ, ih]
        constructor
        · rintro ⟨k, h1, h2, h3⟩
          exact ⟨k + 1, by simpa using h1, h2, by rw [List.take_succ_cons, List.countP_cons, if_pos ha, h3]⟩
        · rintro ⟨k, h1, h2, h3⟩
          cases k with
          | zero => simp at h3
          | succ k =>
            rw [List.take_succ_cons, List.countP_cons, if_pos ha] at h3
            exact ⟨k, by simpa using h1, h2, by omega⟩
    · rw [if_neg ha, ih]
      constructor
      · rintro ⟨k, h1, h2, h3⟩
        exact ⟨k + 1, by simpa using h1, h2, by rw [List.take_succ_cons, List.countP_cons, if_neg ha, h3]; rfl⟩
      · rintro ⟨k, h1, h2, h3⟩
        cases k with
        | zero => simp only [List.getElem?_cons_zero, Option.some.injEq] at h1; subst h1; exact absurd h2 ha
        | succ k =>
          rw [List.take_succ_cons, List.countP_cons, if_neg ha] at h3
          exact ⟨k, by simpa using h1, h2, by omega⟩

theorem lt_length_of_getElem? {α : Type} {l : List α} {k : Nat} {y : α} (h : l[k]? = some y) : k < l.length := by
  by_contra hn
  rw [List.getElem?_eq_none (by omega)] at h
  cases h

theorem occursAt_iff (keep : κ → Bool) (L R : Nat) (cs : List κ) (i : Nat) (hi : i < cs.length) (n c : κ) (d : Int) :
    OccursAt ⟨n, ((cs.take i).drop (i - L)).filter keep, ((cs.drop (i + 1)).take R).filter keep⟩ c d ↔
      KeptAt keep L R cs i c d := by
  unfold OccursAt KeptAt
  constructor
  · rintro (⟨k, h1, rfl⟩ | ⟨k, h1, rfl⟩)
    · obtain ⟨k', h2, h3, rfl⟩ := (filter_getElem? keep _ _ _).1 h1
      have hlt := lt_length_of_getElem? h2
      rw [List.length_drop, List.length_take] at hlt
      refine ⟨h3, i - L + k', ?_, Or.inl ⟨by omega, by omega, ?_⟩⟩
      · rw [List.getElem?_drop, List.getElem?_take, if_pos (by omega)] at h2
        exact h2
      · rw [← List.countP_eq_length_filter, ← List.drop_drop]
        have := List.countP_append (p := keep) (l₁ := ((cs.take i).drop (i - L)).take k') (l₂ := ((cs.take i).drop (i - L)).drop k')
        rw [List.take_append_drop] at this
        omega
    · obtain ⟨k', h2, h3, rfl⟩ := (filter_getElem? keep _ _ _).1 h1
      have hlt := lt_length_of_getElem? h2
      rw [List.length_take] at hlt
      have h4 : cs[i + 1 + k']? = some c := by
        rw [List.getElem?_take, if_pos (by omega), List.getElem?_drop] at h2
        exact h2
      refine ⟨h3, i + 1 + k', h4, Or.inr ⟨by omega, by omega, ?_⟩⟩
      have e : (cs.take (i + 1 + k' + 1)).drop (i + 1) = (((cs.drop (i + 1)).take R).take k') ++ [c] := by
        rw [List.drop_take, show i + 1 + k' + 1 - (i + 1) = k' + 1 by omega, List.take_take, Nat.min_eq_left (by omega),
          List.take_add_one, List.getElem?_drop, h4]
        rfl
      rw [e, List.countP_append]
      simp [h3]
  · rintro ⟨h3, j, h4, ⟨h5, h6, rfl⟩ | ⟨h5, h6, rfl⟩⟩
    · left
      refine ⟨(((cs.take i).drop (i - L)).take (j - (i - L))).countP keep, ?_, ?_⟩
      · refine (filter_getElem? keep _ _ _).2 ⟨j - (i - L), ?_, h3, rfl⟩
        rw [List.getElem?_drop, List.getElem?_take, if_pos (by omega), show i - L + (j - (i - L)) = j by omega]
        exact h4
      · rw [← List.countP_eq_length_filter]
        have := List.countP_append (p := keep) (l₁ := ((cs.take i).drop (i - L)).take (j - (i - L)))
          (l₂ := ((cs.take i).drop (i - L)).drop (j - (i - L)))
        rw [List.take_append_drop, List.drop_drop, show i - L + (j - (i - L)) = j by omega] at this
        omega
    · right
      refine ⟨(((cs.drop (i + 1)).take R).take (j - (i + 1))).countP keep, ?_, ?_⟩
      · refine (filter_getElem? keep _ _ _).2 ⟨j - (i + 1), ?_, h3, rfl⟩
        rw [List.getElem?_take, if_pos (by omega), List.getElem?_drop, show i + 1 + (j - (i + 1)) = j by omega]
        exact h4
      · have e : (cs.take (j + 1)).drop (i + 1) = (((cs.drop (i + 1)).take R).take (j - (i + 1))) ++ [c] := by
          rw [List.drop_take, show j + 1 - (i + 1) = j - (i + 1) + 1 by omega, List.take_take,
            Nat.min_eq_left (by omega), List.take_add_one, List.getElem?_drop, show i + 1 + (j - (i + 1)) = j by omega, h4]
          rfl
        rw [e, List.countP_append]
        simp [h3]

/-- If every collocate within the spans is kept, nothing is compressed. -/
theorem keptAt_iff_inWindow {keep : κ → Bool} {L R : Nat} {cs : List κ} {i : Nat} (hi : i < cs.length)
    (hk : ∀ c d, InWindow L R cs i c d → keep c = true) (c : κ) (d : Int) :
    KeptAt keep L R cs i c d ↔ InWindow L R cs i c d := by
  have left : ∀ j, j < i → i ≤ j + L → ((cs.take i).drop j).countP keep = i - j := by
    intro j h1 h2
    have hl : ((cs.take i).drop j).length = i - j := by rw [List.length_drop, List.length_take]; omega
    rw [← hl, List.countP_eq_length]
    intro a ha
    obtain ⟨k, hk'⟩ := List.mem_iff_getElem?.1 ha
    have hlt := lt_length_of_getElem? hk'
    rw [List.getElem?_drop, List.getElem?_take, if_pos (by omega)] at hk'
    exact hk a _ ⟨j + k, hk', by omega, by omega, by omega, rfl⟩
  have right : ∀ j, i < j → j ≤ i + R → j < cs.length → ((cs.take (j + 1)).drop (i + 1)).countP keep = j - i := by
    intro j h1 h2 h3
    have hl : ((cs.take (j + 1)).drop (i + 1)).length = j - i := by rw [List.length_drop, List.length_take]; omega
    rw [← hl, List.countP_eq_length]
    intro a ha
    obtain ⟨k, hk'⟩ := List.mem_iff_getElem?.1 ha
    have hlt := lt_length_of_getElem? hk'
    rw [List.getElem?_drop, List.getElem?_take, if_pos (by omega)] at hk'
    exact hk a _ ⟨i + 1 + k, hk', by omega, by omega, by omega, rfl⟩
  constructor
  · rintro ⟨_, j, h4, ⟨h5, h6, rfl⟩ | ⟨h5, h6, rfl⟩⟩
    · exact ⟨j, h4, by omega, h6, by omega, by rw [left j h5 h6]; omega⟩
    · exact ⟨j, h4, by omega, by omega, h6, by rw [right j h5 h6 (lt_length_of_getElem? h4)]; omega⟩
  · intro h
    refine ⟨hk c d h, ?_⟩
    obtain ⟨j, h4, hne, h5, h6, rfl⟩ := h
    refine ⟨j, h4, ?_⟩
    rcases Nat.lt_or_gt_of_ne hne with h | h
    · exact Or.inl ⟨h, h5, by rw [left j h h5]; omega⟩
    · exact Or.inr ⟨h, h6, by rw [right j h h6 (lt_length_of_getElem? h4)]; omega⟩

/-! ### Permutations -/

theorem flatMap_swap {α β γ : Type} (as : List α) (bs : List β) (h : α → β → List γ) :
    (as.flatMap (fun a => bs.flatMap (fun b => h a b))).Perm (bs.flatMap (fun b => as.flatMap (fun a => h a b))) := by
  induction as with
  | nil => simp
  | cons a as ih =>
    rw [List.flatMap_cons]
    refine (ih.append_left _).trans ?_
    clear ih
    induction bs with
    | nil => simp
    | cons b bs ih =>
      simp only [List.flatMap_cons, List.append_assoc]
      refine List.Perm.append_left _ ?_
      refine (List.perm_append_comm_assoc _ _ _).trans ?_
      exact ih.append_left _

theorem filter_flatMap {α : Type} {qs : List κ} (hq : qs.Nodup) (ty : α → κ) (l : List α) :
    (qs.flatMap (fun k => l.filter (fun x => decide (ty x = k)))).Perm (l.filter (fun x => decide (ty x ∈ qs))) := by
  induction qs with
  | nil => simp
  | cons q qs ih =>
    obtain ⟨h1, h2⟩ := List.nodup_cons.1 hq
    rw [List.flatMap_cons]
    refine ((ih h2).append_left _).trans ?_
    clear ih
    induction l with
    | nil => simp
    | cons x l ihl =>
      simp only [List.mem_cons] at ihl
      simp only [List.filter_cons]
      by_cases ha : ty x = q
      · have hb : ty x ∉ qs := by rw [ha]; exact h1
        simp only [ha, h1, List.mem_cons, true_or, decide_true, decide_false, if_true, Bool.false_eq_true, if_false]
        exact ihl.cons x
      · by_cases hb : ty x ∈ qs
        · simp only [ha, hb, List.mem_cons, or_true, decide_true, decide_false, if_true, Bool.false_eq_true, if_false]
          exact List.perm_middle.trans (ihl.cons x)
        · simp only [ha, hb, List.mem_cons, or_false, decide_false, Bool.false_eq_true, if_false]
          exact ihl

end Verif.Flow
