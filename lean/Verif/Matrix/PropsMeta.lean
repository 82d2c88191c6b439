import Verif.Matrix.Meta

/-!
# C203: meta data of matrices
-/

namespace Verif.Matrix.Meta
open Verif.Py Verif.Vocab.Plain

variable {ν : Type}

/-! ### Specification -/

/-- Names that a user may give to an attribute without touching those of the matrix itself or of its constructor. -/
def Free (k : String) : Prop :=
  k ∉ ["self", "matrix", "row_items", "col_items", "deep", "_mxbehavior", "_item2rowid", "_item2colid"]

/-- The matrices that programs make: new ones, with further attributes, with tables of names once these are asked for, made from
other matrices, or saved and loaded. -/
inductive Made : Obj ν → Prop where
  | new {deep rows cols kwargs o} (h : construct deep rows cols kwargs = .ok o) : Made o
  | attr {o k} (h : Made o) (hk : Free k) (v : ν) : Made (setAttr o k v)
  | rowTable {o} (h : Made o) (t : Dict Str Nat) : Made (Dict.set o "_item2rowid" (.table (some t)))
  | colTable {o} (h : Made o) (t : Dict Str Nat) : Made (Dict.set o "_item2colid" (.table (some t)))
  | derived {o deep rows cols o'} (h : Made o) (hd : derive deep o rows cols = .ok o') : Made o'
  | stored {o file o'} (h : Made o) (hs : savedMeta o = .ok file) (hl : loaded file = .ok o') : Made o'

/-- The attribute is there and is what the user gave. -/
def Has (d : Dict String (Val ν)) (k : String) (v : ν) : Prop := d.get? k = some (.user v)

/-- The item lists of a matrix. -/
def SameItems (o : Obj ν) (rows cols : List Str) : Prop :=
  o.get? "row_items" = some (.items rows) ∧ o.get? "col_items" = some (.items cols)

/-! ### Proof -/

/-- What all matrices have. -/
structure Inv (o : Obj ν) : Prop where
  wf : Dict.WF o
  row : ∃ l, o.get? "row_items" = some (.items l)
  col : ∃ l, o.get? "col_items" = some (.items l)
  no : ∀ k ∈ ["self", "matrix", "deep", "_mxbehavior"], k ∉ Dict.keys o

theorem construct_eq {deep : Bool} {rows cols : List Str} {kwargs : Dict String (Val ν)} {o : Obj ν} (h : construct deep rows cols kwargs = .ok o) :
    o = [("row_items", .items rows), ("col_items", .items cols), ("_item2rowid", .table none), ("_item2colid", .table none)] := by
  unfold construct at h
  split at h
  · cases h
  · split at h
    · cases h
    · cases h; rfl

theorem inv_construct {deep : Bool} {rows cols : List Str} {kwargs : Dict String (Val ν)} {o : Obj ν} (h : construct deep rows cols kwargs = .ok o) :
    Inv o := by
  rw [construct_eq h]
  refine ⟨?_, ⟨rows, rfl⟩, ⟨cols, rfl⟩, ?_⟩
  · show (["row_items", "col_items", "_item2rowid", "_item2colid"] : List String).Nodup
    decide
  · show ∀ k ∈ (["self", "matrix", "deep", "_mxbehavior"] : List String), k ∉ (["row_items", "col_items", "_item2rowid", "_item2colid"] : List String)
    decide

theorem inv_set {o : Obj ν} (h : Inv o) {k : String} (hk : k ∉ ["self", "matrix", "row_items", "col_items", "deep", "_mxbehavior"]) (v : Val ν) :
    Inv (Dict.set o k v) := by
  obtain ⟨r, hr⟩ := h.row
  obtain ⟨c, hc⟩ := h.col
  refine ⟨Dict.WF_set h.wf _ _, ⟨r, ?_⟩, ⟨c, ?_⟩, ?_⟩
  · rw [Dict.get?_set, if_neg (by rintro rfl; exact hk (by decide)), hr]
  · rw [Dict.get?_set, if_neg (by rintro rfl; exact hk (by decide)), hc]
  · intro x hx hm
    rw [Dict.keys_set] at hm
    split at hm
    · exact h.no x hx hm
    · rcases List.mem_append.1 hm with hm | hm
      · exact h.no x hx hm
      · rw [List.mem_singleton.1 hm] at hx
        simp only [List.mem_cons, List.not_mem_nil, or_false, not_or] at hk hx
        tauto

theorem inv_made {o : Obj ν} (h : Made o) : Inv o := by
  induction h with
  | new h => exact inv_construct h
  | attr h hk v ih =>
    refine inv_set ih ?_ _
    unfold Free at hk
    simp only [List.mem_cons, List.not_mem_nil, or_false, not_or] at hk ⊢
    tauto
  | rowTable h t ih => exact inv_set ih (by decide) _
  | colTable h t ih => exact inv_set ih (by decide) _
  | derived h hd ih => exact inv_construct hd
  | stored h hs hl ih =>
    unfold loaded at hl
    split at hl
    · exact inv_construct hl
    · cases hl

theorem get?_metaData {o : Obj ν} (h : Inv o) {k : String} (hk : k ∉ notMeta) : (metaData o).get? k = Dict.get? o k := by
  unfold metaData
  rw [Dict.get?_filter h.wf]
  cases hg : Dict.get? o k with
  | none => rfl
  | some v => simp [Option.filter, hk]

theorem keys_metaData {o : Obj ν} {k : String} (h : k ∈ (metaData o).keys) : k ∈ Dict.keys o ∧ k ∉ notMeta := by
  unfold metaData Dict.keys at h
  obtain ⟨e, he, rfl⟩ := List.mem_map.1 h
  obtain ⟨h1, h2⟩ := List.mem_filter.1 he
  exact ⟨List.mem_map_of_mem h1, by simpa using h2⟩

theorem free_notMeta {k : String} (hk : Free k) : k ∉ notMeta := by
  unfold Free at hk
  unfold notMeta
  simp only [List.mem_cons, List.not_mem_nil, or_false, not_or] at hk ⊢
  tauto

theorem derive_ok {o : Obj ν} (h : Inv o) (deep : Bool) (rows cols : List Str) : ∃ o', derive deep o rows cols = .ok o' := by
  unfold derive construct
  rw [if_neg, if_neg]
  · exact ⟨_, rfl⟩
  · rintro ⟨_, hm⟩
    exact h.no "deep" (by decide) (keys_metaData hm).1
  · intro hany
    obtain ⟨k, hk, hp⟩ := List.any_eq_true.1 hany
    obtain ⟨h1, h2⟩ := keys_metaData hk
    have hp : k ∈ paramNames := by simpa using hp
    unfold paramNames at hp
    simp only [List.mem_cons, List.not_mem_nil, or_false] at hp
    rcases hp with rfl | rfl | rfl | rfl
    · exact h.no "self" (by decide) h1
    · exact h.no "matrix" (by decide) h1
    · exact h2 (by decide)
    · exact h2 (by decide)

theorem savedMeta_get {o : Obj ν} (h : Inv o) : ∃ file, savedMeta o = .ok file ∧ file.get? "row_items" = Dict.get? o "row_items" ∧
    file.get? "col_items" = Dict.get? o "col_items" ∧ ∀ k, Free k → file.get? k = Dict.get? o k := by
  obtain ⟨r, hr⟩ := h.row
  obtain ⟨c, hc⟩ := h.col
  have hwf : Dict.WF (metaData o) := Dict.WF_filter h.wf _
  have hnone : ∀ k ∈ notMeta, (metaData o).get? k = none := by
    intro k hk
    rw [Dict.get?_eq_none_iff]
    exact fun hm => (keys_metaData hm).2 hk
  refine ⟨_, by unfold savedMeta; rw [hr, hc], ?_, ?_, ?_⟩
  · rw [Dict.get?_update hwf, hnone _ (by decide), hr]; rfl
  · rw [Dict.get?_update hwf, hnone _ (by decide), hc]; rfl
  · intro k hk
    rw [Dict.get?_update hwf, get?_metaData h (free_notMeta hk)]
    cases hg : Dict.get? o k with
    | some v => rfl
    | none =>
      have h1 : k ≠ "row_items" := by rintro rfl; exact hk (by decide)
      have h2 : k ≠ "col_items" := by rintro rfl; exact hk (by decide)
      simp [Dict.get?_cons, Ne.symm h1, Ne.symm h2]

theorem no_user {deep : Bool} {rows cols : List Str} {kwargs : Dict String (Val ν)} {o : Obj ν} (h : construct deep rows cols kwargs = .ok o)
    (k : String) (v : ν) : ¬ Has o k v := by
  rw [construct_eq h]
  unfold Has
  intro hh
  have := Dict.mem_of_get? hh
  simp at this

/-- **C203** (partial): an attribute that is set on a matrix is in its meta data, beside those set before; copies have it, and `save`
writes it into the meta data file.  Missing: what is given to the constructor, derived and loaded matrices (`C203_false`). -/
theorem C203_partial {o : Obj ν} (h : Made o) {k : String} (hk : Free k) (v : ν) :
    Has (metaData (setAttr o k v)) k v ∧ (∀ k' v', Free k' → k' ≠ k → (Has (metaData (setAttr o k v)) k' v' ↔ Has (metaData o) k' v')) ∧
    metaData (copy (setAttr o k v)) = metaData (setAttr o k v) ∧
    ∃ file, savedMeta (setAttr o k v) = .ok file ∧ ∀ k' v', Free k' → (Has file k' v' ↔ Has (metaData (setAttr o k v)) k' v') := by
  have h1 := inv_made h
  have h2 := inv_made (Made.attr h hk v)
  refine ⟨?_, ?_, rfl, ?_⟩
  · unfold Has
    rw [get?_metaData h2 (free_notMeta hk)]
    unfold setAttr
    rw [Dict.get?_set, if_pos rfl]
  · intro k' v' hk' hne
    unfold Has
    rw [get?_metaData h2 (free_notMeta hk'), get?_metaData h1 (free_notMeta hk')]
    unfold setAttr
    rw [Dict.get?_set, if_neg hne.symm]
  · obtain ⟨file, hf, _, _, hg⟩ := savedMeta_get h2
    refine ⟨file, hf, fun k' v' hk' => ?_⟩
    unfold Has
    rw [hg k' hk', get?_metaData h2 (free_notMeta hk')]

/-- **C203 is false**: a new matrix has nothing of the keyword arguments, and no matrix made from another one, or saved and loaded,
has any attribute that was set; they have the item lists. -/
theorem C203_false :
    (∀ (deep : Bool) (rows cols : List Str) (kwargs : Dict String (Val ν)) (o : Obj ν), construct deep rows cols kwargs = .ok o → ∀ k v, ¬ Has (metaData o) k v) ∧
    (∀ o : Obj ν, Made o → ∀ (deep : Bool) (rows cols : List Str), ∃ o', derive deep o rows cols = .ok o' ∧ SameItems o' rows cols ∧
      ∀ k v, ¬ Has (metaData o') k v) ∧
    ∀ o : Obj ν, Made o → ∃ file o' rows cols, SameItems o rows cols ∧ savedMeta o = .ok file ∧ loaded file = .ok o' ∧ SameItems o' rows cols ∧ ∀ k v, ¬ Has (metaData o') k v := by
  have key : ∀ (deep : Bool) (rows cols : List Str) (kwargs : Dict String (Val ν)) (o : Obj ν), construct deep rows cols kwargs = .ok o →
      ∀ k v, ¬ Has (metaData o) k v := by
    intro deep rows cols kwargs o h k v hh
    have hm := Dict.mem_of_get? hh
    unfold metaData at hm
    exact no_user h k v (Dict.get?_of_mem (inv_construct h).wf (List.mem_filter.1 hm).1)
  refine ⟨key, ?_, ?_⟩
  · intro o h deep rows cols
    obtain ⟨o', ho'⟩ := derive_ok (inv_made h) deep rows cols
    exact ⟨o', ho', by rw [construct_eq ho']; exact ⟨rfl, rfl⟩, key _ _ _ _ _ ho'⟩
  · intro o h
    have hi := inv_made h
    obtain ⟨r, hr⟩ := hi.row
    obtain ⟨c, hc⟩ := hi.col
    obtain ⟨file, hf, h1, h2, _⟩ := savedMeta_get hi
    have : ∃ o', loaded file = .ok o' ∧ construct true r c ([] : Dict String (Val ν)) = .ok o' := by
      unfold loaded
      rw [h1, hr, h2, hc]
      refine ⟨_, rfl, rfl⟩
    obtain ⟨o', ho', hc'⟩ := this
    exact ⟨file, o', r, c, ⟨hr, hc⟩, hf, ho', by rw [construct_eq hc']; exact ⟨rfl, rfl⟩, key _ _ _ _ _ hc'⟩

/-- **C203**, a trap: an attribute named `deep` makes selecting rows or columns a `TypeError`. -/
theorem C203_deep {o : Obj ν} (h : Made o) (v : ν) (rows cols : List Str) : derive true (setAttr o "deep" v) rows cols = .error .typeError := by
  have hi := inv_made h
  have hm : "deep" ∈ (metaData (setAttr o "deep" v)).keys := by
    rw [← Dict.get?_isSome_iff]
    unfold metaData setAttr
    rw [Dict.get?_filter (Dict.WF_set hi.wf _ _), Dict.get?_set, if_pos rfl]
    rfl
  unfold derive construct
  split
  · rfl
  · rw [if_pos ⟨rfl, hm⟩]

/-- The hypotheses: a similarity matrix with its kind as keyword argument and then as attribute. -/
example : ∃ o : Obj String, construct false ["a".toList] ["a".toList] [("metric", .user "cos")] = .ok o ∧ Made (setAttr o "metric" "cos") ∧ Free "metric" ∧
    ¬ Has (metaData o) "metric" "cos" ∧ Has (metaData (setAttr o "metric" "cos")) "metric" "cos" := by
  have hf : Free "metric" := by unfold Free; decide
  have hc : construct false ["a".toList] ["a".toList] [("metric", .user "cos")] = .ok ([("row_items", .items ["a".toList]),
      ("col_items", .items ["a".toList]), ("_item2rowid", .table none), ("_item2colid", .table none)] : Obj String) := rfl
  refine ⟨_, hc, .attr (.new hc) hf _, hf, ?_, rfl⟩
  exact C203_false.1 false ["a".toList] ["a".toList] [("metric", .user "cos")] _ rfl _ _

end Verif.Matrix.Meta
