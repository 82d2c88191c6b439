import Verif.Setup.PropsLoad

/-!
# C162, C163: which files are written, and what is needed to load
-/

set_option linter.unusedSectionVars false

namespace Verif.Setup.Save

open Verif.Py

/-! ## Specification -/

/-- Stored apart: an array with at least `limit` numbers, or a sparse matrix with at least `limit` stored numbers. -/
def Leaf.big (limit : Nat) : Leaf → Prop
  | .array size _ => limit ≤ size
  | .sparse nnz _ _ _ => limit ≤ nnz
  | _ => False

/-- The files of what is found at a place: one for an array, four for a sparse matrix. -/
def Leaf.file : Leaf → List String → Content → Prop
  | .array size x, r, c => r = [] ∧ c = .npyArray size x
  | .sparse nnz d i j, r, c => (r = [] ∧ c = .shell nnz) ∨ (r = ["data"] ∧ c = .npy d) ∨ (r = ["indptr"] ∧ c = .npy i) ∨ (r = ["indices"] ∧ c = .npy j)
  | _, _, _ => False

/-- `c` belongs in file `p`: following attribute names, none of them to be ignored, something big is found. -/
def InFile (o : Opts) (v : Val) (p : List String) (c : Content) : Prop :=
  ∃ q r w, p = q ++ r ∧ (∀ k ∈ q, k ∉ o.ignore) ∧ obs v q = some w ∧ w.big o.limit ∧ w.file r c

/-! ## Lemmas -/

theorem inFile_obj (o : Opts) (attrs : Attrs) (p : List String) (c : Content) :
    InFile o (.obj attrs) p c ↔ ∃ k r v, p = k :: r ∧ isBook k = false ∧ k ∉ o.ignore ∧ Dict.get? attrs k = some v ∧ InFile o v r c := by
  constructor
  · rintro ⟨q, r, w, rfl, hq, hw, hb, hf⟩
    cases q with
    | nil =>
      simp only [obs, Option.some.injEq] at hw
      subst hw
      exact hb.elim
    | cons k q =>
      rw [obs_obj] at hw
      cases hk : isBook k with
      | true => simp [hk] at hw
      | false =>
        simp only [hk, Bool.false_eq_true, if_false] at hw
        unfold below at hw
        cases hg : Dict.get? attrs k with
        | none => rw [hg] at hw; exact (nomatch hw)
        | some v =>
          rw [hg] at hw
          exact ⟨k, q ++ r, v, rfl, hk, hq k (by simp), hg, q, r, w, rfl, fun k' hk' => hq k' (by simp [hk']), hw, hb, hf⟩
  · rintro ⟨k, _, v, rfl, hk, hi, hg, q, r, w, rfl, hq, hw, hb, hf⟩
    refine ⟨k :: q, r, w, rfl, ?_, ?_, hb, hf⟩
    · intro k' hk'
      rcases List.mem_cons.1 hk' with rfl | hk'
      · exact hi
      · exact hq k' hk'
    · rw [obs_obj, hk]
      simp only [Bool.false_eq_true, if_false]
      unfold below
      rw [hg]
      exact hw

theorem inFile_leaf (o : Opts) (v : Val) (hv : ∀ a, v ≠ .obj a) (p : List String) (c : Content) :
    InFile o v p c ↔ v.leaf.big o.limit ∧ v.leaf.file p c := by
  constructor
  · rintro ⟨q, r, w, rfl, hq, hw, hb, hf⟩
    cases q with
    | nil =>
      simp only [obs, Option.some.injEq] at hw
      subst hw
      exact ⟨hb, hf⟩
    | cons k q =>
      cases v with
      | obj a => exact absurd rfl (hv a)
      | _ => simp [obs] at hw
  · rintro ⟨hb, hf⟩
    exact ⟨[], p, v.leaf, rfl, by simp, by simp [obs], hb, hf⟩

/-- One attribute. -/
theorem writeAside_files {ok : Nat → Bool} {o : Opts} {path : List String} {st : St} {l : Lists} {k : String} {v : Val}
    {st' : St} {l' : Lists} (h : writeAside ok o path (st, some l) (k, v) = (st', some l'))
    (hfresh : ∀ r, Dict.get? st.files (path ++ k :: r) = Option.none) (r : List String) (c : Content) :
    Dict.get? st'.files (path ++ k :: r) = some c ↔ k ∉ o.ignore ∧ v.leaf.file r c := by
  obtain ⟨ns, ss, is⟩ := l
  have hwr : ∀ key c st st1, write ok key c st = (st1, true) → st1.files = Dict.set st.files key c := by
    intro key c st st1 hw
    unfold write at hw
    split at hw
    · simp only [Prod.mk.injEq, and_true] at hw
      rw [← hw]
    · simp at hw
  have hno : st' = st → (Dict.get? st'.files (path ++ k :: r) = some c ↔ False) := by
    rintro rfl
    rw [hfresh r]
    simp
  unfold writeAside at h
  simp only at h
  by_cases hi : k ∈ o.ignore
  · have : st' = st := by
      rw [show decide (k ∈ o.ignore) = true from by simpa using hi] at h
      cases v <;> simp only [Prod.mk.injEq] at h <;> exact h.1.symm
    rw [hno this]
    simp [hi]
  · rw [show decide (k ∈ o.ignore) = false from by simpa using hi] at h
    simp only [hi, not_false_eq_true, true_and]
    cases v with
    | array size x =>
      simp only at h
      split at h
      · rename_i st1 hw
        simp only [Prod.mk.injEq] at h
        rw [← h.1, hwr _ _ _ _ hw, Dict.get?_set]
        by_cases hr : r = []
        · subst hr
          simp [Val.leaf, Leaf.file, eq_comm]
        · rw [if_neg (by simpa using hr), hfresh]
          simp [Val.leaf, Leaf.file, hr]
      · simp at h
    | sparse nnz d i j =>
      simp only at h
      split at h
      · simp at h
      · rename_i st1 hw1
        split at h
        · simp at h
        · rename_i st2 hw2
          split at h
          · simp at h
          · rename_i st3 hw3
            split at h
            · rename_i st4 hw4
              simp only [Prod.mk.injEq] at h
              rw [← h.1, hwr _ _ _ _ hw4, hwr _ _ _ _ hw3, hwr _ _ _ _ hw2, hwr _ _ _ _ hw1, Dict.get?_set, Dict.get?_set, Dict.get?_set,
                Dict.get?_set, hfresh]
              simp only [List.append_cancel_left_eq, List.cons.injEq, true_and]
              simp only [Val.leaf, Leaf.file]
              by_cases h0 : r = []
              · subst h0
                simp [eq_comm]
              by_cases h1 : r = ["data"]
              · subst h1
                simp [eq_comm]
              by_cases h2 : r = ["indptr"]
              · subst h2
                simp [eq_comm]
              by_cases h3 : r = ["indices"]
              · subst h3
                simp [eq_comm]
              rw [if_neg (fun e => h0 e.symm), if_neg (fun e => h3 e.symm), if_neg (fun e => h2 e.symm), if_neg (fun e => h1 e.symm)]
              simp [h0, h1, h2, h3]
            · simp at h
    | _ =>
      simp only [Prod.mk.injEq] at h
      rw [hno h.1.symm]
      simp [Val.leaf, Leaf.file]

/-- All attributes put aside. -/
theorem writeAsides_files {ok : Nat → Bool} {o : Opts} {path : List String} (l : List (String × Val)) (hnd : (Dict.keys l).Nodup) :
    ∀ {st : St} {ls : Lists} {st' : St} {ls' : Lists}, l.foldl (writeAside ok o path) (st, some ls) = (st', some ls') →
    (∀ k ∈ Dict.keys l, ∀ r, Dict.get? st.files (path ++ k :: r) = Option.none) → ∀ p c,
    (Dict.get? st'.files p = some c ↔ (∃ k v r, (k, v) ∈ l ∧ k ∉ o.ignore ∧ p = path ++ k :: r ∧ v.leaf.file r c) ∨ Dict.get? st.files p = some c) := by
  induction l with
  | nil =>
    intro st ls st' ls' h _ p c
    simp only [List.foldl_nil, Prod.mk.injEq] at h
    rw [h.1]
    simp
  | cons x l ih =>
    obtain ⟨k, v⟩ := x
    simp only [Dict.keys_cons, List.nodup_cons] at hnd
    intro st ls st' ls' h hfresh p c
    rw [List.foldl_cons] at h
    cases hw : writeAside ok o path (st, some ls) (k, v) with
    | mk st1 l1 =>
      cases l1 with
      | none => rw [hw, writeAside_none] at h; simp at h
      | some l1 =>
        rw [hw] at h
        have hframe := (writeAside_some hw).2.1
        have hother : ∀ k', k' ≠ k → ∀ r, Dict.get? st1.files (path ++ k' :: r) = Dict.get? st.files (path ++ k' :: r) := by
          intro k' hk' r
          refine hframe _ ?_
          intro k2 r2 he hk2
          simp only [List.append_cancel_left_eq, List.cons.injEq] at he
          exact hk' (he.1.trans hk2)
        have hk0 : ∀ r, Dict.get? st.files (path ++ k :: r) = Option.none := hfresh k (by simp)
        rw [ih hnd.2 h (fun k' hk' r => by rw [hother k' (fun e => hnd.1 (e ▸ hk')) r]; exact hfresh k' (by simp [hk']) r) p c]
        have hst1 : Dict.get? st1.files p = some c ↔ (∃ r, k ∉ o.ignore ∧ p = path ++ k :: r ∧ v.leaf.file r c) ∨ Dict.get? st.files p = some c := by
          by_cases hp : ∃ r, p = path ++ k :: r
          · obtain ⟨r, rfl⟩ := hp
            rw [writeAside_files hw hk0 r c, hk0 r]
            constructor
            · rintro ⟨h1, h2⟩
              exact Or.inl ⟨r, h1, rfl, h2⟩
            · rintro (⟨r', h1, h2, h3⟩ | h1)
              · simp only [List.append_cancel_left_eq, List.cons.injEq, true_and] at h2
                subst h2
                exact ⟨h1, h3⟩
              · exact (nomatch h1)
          · rw [hframe p (fun k2 r2 he hk2 => hp ⟨r2, by rw [he, hk2]⟩)]
            constructor
            · exact Or.inr
            · rintro (⟨r', h1, h2, h3⟩ | h1)
              · exact absurd ⟨r', h2⟩ hp
              · exact h1
        rw [hst1]
        constructor
        · rintro (⟨k', v', r, hm, h1⟩ | ⟨r, h1⟩ | h1)
          · exact Or.inl ⟨k', v', r, List.mem_cons_of_mem _ hm, h1⟩
          · exact Or.inl ⟨k, v, r, by simp, h1⟩
          · exact Or.inr h1
        · rintro (⟨k', v', r, hm, h1⟩ | h1)
          · rcases List.mem_cons.1 hm with he | hm
            · simp only [Prod.mk.injEq] at he
              obtain ⟨rfl, rfl⟩ := he
              exact Or.inr (Or.inl ⟨r, h1⟩)
            · exact Or.inl ⟨k', v', r, hm, h1⟩
          · exact Or.inr (Or.inr h1)

theorem mem_autoSep_iff {limit : Nat} {attrs : Attrs} (hnd : (Dict.keys attrs).Nodup) {k : String} {v : Val}
    (hv : Dict.get? attrs k = some v) : k ∈ autoSep limit attrs ↔ v.leaf.big limit := by
  have hm := Dict.mem_of_get? hv
  unfold autoSep
  rw [List.mem_filterMap]
  constructor
  · rintro ⟨⟨k', w⟩, hm', he⟩
    have hkk : k' = k ∧ w.leaf.big limit := by
      cases w with
      | array s c => simp at he; exact ⟨he.2, he.1⟩
      | sparse n d i j => simp at he; exact ⟨he.2, he.1⟩
      | _ => simp at he
    obtain ⟨rfl, hb⟩ := hkk
    have hw := Dict.get?_of_mem hnd hm'
    rw [hv] at hw
    obtain rfl := Option.some.inj hw
    exact hb
  · intro hb
    refine ⟨(k, v), hm, ?_⟩
    cases v <;> first
      | exact hb.elim
      | (simp only
         exact if_pos hb)

theorem autoSep_book {limit : Nat} {attrs : Attrs} (ht : TidyL attrs) {k : String} (hk : k ∈ autoSep limit attrs) : isBook k = false := by
  obtain ⟨v, hm, ha⟩ := mem_autoSep hk
  cases hb : isBook k with
  | false => rfl
  | true =>
    obtain ⟨l, rfl⟩ := (mem_TidyL ht hm).1 hb
    simp [Val.isArray] at ha

mutual
theorem saveVal_files (ok : Nat → Bool) (o : Opts) : ∀ (v : Val) (path : List String) (st : St) (rs : Restores), Tidy v →
    (saveVal ok o path Option.none v st).res = some rs → (∀ k r, Dict.get? st.files (path ++ k :: r) = Option.none) → ∀ p c,
    (Dict.get? (saveVal ok o path Option.none v st).st.files p = some c ↔
      (∃ a r, v = .obj a ∧ p = path ++ r ∧ InFile o v r c) ∨ Dict.get? st.files p = some c)
  | .obj attrs, path, st, rs, ht, h, hfresh, p, c => by
    rw [Tidy] at ht
    rw [saveVal] at h ⊢
    generalize hn : (Option.none : Option (List String)).getD (autoSep o.limit attrs) ++ o.ignore = nms at h ⊢
    have hnm : ∀ k, k ∈ nms ↔ k ∈ autoSep o.limit attrs ∨ k ∈ o.ignore := by
      intro k
      rw [← hn]
      simp
    have hattrs := saveAttrs_files ok o attrs path nms st
    have hframe := saveAttrs_frame ok o attrs path nms st
    cases hr : (saveAttrs ok o path nms attrs st).res with
    | none => rw [hr] at h; exact (nomatch h)
    | some rs1 =>
      rw [hr] at h
      simp only at h ⊢
      have hA := hattrs rs1 ht.2 ht.1 hr (fun k _ _ r => hfresh k r)
      have hF := hframe rs1 hr
      generalize hw : (setAside nms attrs).foldl (writeAside ok o path)
        ((saveAttrs ok o path nms attrs st).st, some ([], [], [])) = w at h ⊢
      obtain ⟨st', lists⟩ := w
      cases lists with
      | none => exact (nomatch h)
      | some lists =>
        simp only
        have hmem : ∀ k v, (k, v) ∈ setAside nms attrs ↔ k ∈ nms ∧ Dict.get? attrs k = some v := by
          intro k v
          constructor
          · intro hm
            have := Dict.get?_of_mem (setAside_WF nms attrs) hm
            rw [setAside_get] at this
            by_cases hk : k ∈ nms
            · rw [if_pos hk] at this; exact ⟨hk, this⟩
            · rw [if_neg hk] at this; exact (nomatch this)
          · rintro ⟨h1, h2⟩
            refine Dict.mem_of_get? ?_
            rw [setAside_get, if_pos h1, h2]
        have hfr : ∀ k ∈ Dict.keys (setAside nms attrs), ∀ r,
            Dict.get? (saveAttrs ok o path nms attrs st).st.files (path ++ k :: r) = Option.none := by
          intro k hk r
          obtain ⟨⟨k', v⟩, hm, rfl⟩ := List.mem_map.1 hk
          have hkn := ((hmem _ _).1 hm).1
          rw [hF _ (fun k2 r2 he hk2 => by
            simp only [List.append_cancel_left_eq, List.cons.injEq] at he
            exact hk2.2 (he.1 ▸ hkn))]
          exact hfresh k' r
        rw [writeAsides_files _ (setAside_WF nms attrs) hw hfr p c, hA p c]
        have hsplit : (∃ a r, Val.obj attrs = .obj a ∧ p = path ++ r ∧ InFile o (.obj attrs) r c) ↔
            (∃ k v r, (k, v) ∈ setAside nms attrs ∧ k ∉ o.ignore ∧ p = path ++ k :: r ∧ v.leaf.file r c) ∨
            (∃ k a r, (k, Val.obj a) ∈ attrs ∧ k ∉ nms ∧ p = path ++ k :: r ∧ InFile o (.obj a) r c) := by
          constructor
          · rintro ⟨_, r, _, rfl, hin⟩
            rw [inFile_obj] at hin
            obtain ⟨k, r, v, rfl, hbk, hi, hg, hin⟩ := hin
            by_cases hv : ∃ a, v = .obj a
            · obtain ⟨a, rfl⟩ := hv
              refine Or.inr ⟨k, a, r, Dict.mem_of_get? hg, ?_, rfl, hin⟩
              rw [hnm]
              rintro (h1 | h1)
              · exact ((mem_autoSep_iff ht.1 hg).1 h1)
              · exact hi h1
            · rw [inFile_leaf o v (fun a e => hv ⟨a, e⟩)] at hin
              exact Or.inl ⟨k, v, r, (hmem k v).2 ⟨(hnm k).2 (Or.inl ((mem_autoSep_iff ht.1 hg).2 hin.1)), hg⟩, hi, rfl, hin.2⟩
          · rintro (⟨k, v, r, hm, hi, rfl, hf⟩ | ⟨k, a, r, hm, hk, rfl, hin⟩)
            · obtain ⟨h1, hg⟩ := (hmem k v).1 hm
              have ha : k ∈ autoSep o.limit attrs := ((hnm k).1 h1).resolve_right hi
              have hb := (mem_autoSep_iff ht.1 hg).1 ha
              have hv : ∀ a, v ≠ .obj a := by
                rintro a rfl
                exact hb
              exact ⟨attrs, k :: r, rfl, rfl, (inFile_obj o attrs _ c).2 ⟨k, r, v, rfl, autoSep_book ht.2 ha, hi, hg,
                (inFile_leaf o v hv r c).2 ⟨hb, hf⟩⟩⟩
            · have hbk : isBook k = false := by
                cases hb : isBook k with
                | false => rfl
                | true =>
                  obtain ⟨l, hl⟩ := (mem_TidyL ht.2 hm).1 hb
                  exact (nomatch hl)
              exact ⟨attrs, k :: r, rfl, rfl, (inFile_obj o attrs _ c).2 ⟨k, r, .obj a, rfl, hbk, fun hi => hk ((hnm k).2 (Or.inr hi)),
                Dict.get?_of_mem ht.1 hm, hin⟩⟩
        rw [hsplit, or_assoc]
  | .array s x, path, st, rs, _, h, _, p, c => by
    rw [saveVal]
    · simp
    all_goals simp
  | .sparse n d i j, path, st, rs, _, h, _, p, c => by
    rw [saveVal]
    · simp
    all_goals simp
  | .plain x, path, st, rs, _, h, _, p, c => by
    rw [saveVal]
    · simp
    all_goals simp
  | .names l, path, st, rs, _, h, _, p, c => by
    rw [saveVal]
    · simp
    all_goals simp
  | .none, path, st, rs, _, h, _, p, c => by
    rw [saveVal]
    · simp
    all_goals simp
theorem saveAttrs_files (ok : Nat → Bool) (o : Opts) : ∀ (attrs : Attrs) (path gone : List String) (st : St) (rs : Restores),
    TidyL attrs → (Dict.keys attrs).Nodup → (saveAttrs ok o path gone attrs st).res = some rs →
    (∀ k, k ∈ Dict.keys attrs → k ∉ gone → ∀ r, Dict.get? st.files (path ++ k :: r) = Option.none) → ∀ p c,
    (Dict.get? (saveAttrs ok o path gone attrs st).st.files p = some c ↔
      (∃ k a r, (k, Val.obj a) ∈ attrs ∧ k ∉ gone ∧ p = path ++ k :: r ∧ InFile o (.obj a) r c) ∨ Dict.get? st.files p = some c)
  | [], path, gone, st, rs, _, _, h, _, p, c => by
    rw [saveAttrs]
    simp
  | (k, v) :: rest, path, gone, st, rs, ht, hnd, h, hfresh, p, c => by
    rw [TidyL] at ht
    simp only [Dict.keys_cons, List.nodup_cons] at hnd
    rw [saveAttrs] at h ⊢
    by_cases hk : k ∈ gone
    · rw [if_pos hk] at h ⊢
      rw [saveAttrs_files ok o rest path gone st rs ht.2.2 hnd.2 h (fun k' hk' => hfresh k' (by simp [hk'])) p c]
      constructor
      · rintro (⟨k', a, r, hm, h1⟩ | h1)
        · exact Or.inl ⟨k', a, r, List.mem_cons_of_mem _ hm, h1⟩
        · exact Or.inr h1
      · rintro (⟨k', a, r, hm, h1⟩ | h1)
        · rcases List.mem_cons.1 hm with he | hm
          · simp only [Prod.mk.injEq] at he
            exact absurd (he.1 ▸ hk) h1.1
          · exact Or.inl ⟨k', a, r, hm, h1⟩
        · exact Or.inr h1
    · rw [if_neg hk] at h ⊢
      simp only at h ⊢
      have hv := saveVal_files ok o v (path ++ [k]) st
      have hframe := saveVal_frame ok o v (path ++ [k]) Option.none st
      cases hr : (saveVal ok o (path ++ [k]) Option.none v st).res with
      | none => rw [hr] at h; exact (nomatch h)
      | some rs1 =>
        rw [hr] at h
        simp only at h ⊢
        obtain ⟨rs2, h2, _⟩ := Option.map_eq_some_iff.1 h
        have hv' := hv rs1 ht.2.1 hr (fun k2 r => by simpa using hfresh k (by simp) hk (k2 :: r))
        have hF := (hframe rs1 hr).up
        rw [saveAttrs_files ok o rest path gone _ rs2 ht.2.2 hnd.2 h2 (fun k' hk' hg r => by
          rw [hF _ (fun k2 r2 he hk2 => by
            simp only [List.append_cancel_left_eq, List.cons.injEq] at he
            exact hnd.1 (by rw [← hk2, ← he.1]; exact hk'))]
          exact hfresh k' (by simp [hk']) hg r) p c, hv' p c]
        constructor
        · rintro (⟨k', a, r, hm, h1⟩ | ⟨a, r, rfl, rfl, h1⟩ | h1)
          · exact Or.inl ⟨k', a, r, List.mem_cons_of_mem _ hm, h1⟩
          · exact Or.inl ⟨k, a, r, by simp, hk, by simp, h1⟩
          · exact Or.inr h1
        · rintro (⟨k', a, r, hm, hk', rfl, h1⟩ | h1)
          · rcases List.mem_cons.1 hm with he | hm
            · simp only [Prod.mk.injEq] at he
              obtain ⟨rfl, rfl⟩ := he
              exact Or.inr (Or.inl ⟨a, r, rfl, by simp, h1⟩)
            · exact Or.inl ⟨k', a, r, hm, hk', rfl, h1⟩
          · exact Or.inr (Or.inr h1)
end

/-! ## C162 -/

/-- **C162**: saving without naming attributes to be stored apart writes, beside the file of the object itself, exactly the files of
the arrays and sparse matrices with at least `sep_limit` numbers, in the object or in objects inside it, that are not to be ignored. -/
theorem C162_files (ok : Nat → Bool) (o : Opts) (attrs : Attrs) (n : Nat) (ht : Tidy (.obj attrs))
    (h : (smartSave ok o Option.none (.obj attrs) ⟨[], n⟩).2.2 = true) (p : List String) (hp : p ≠ []) (c : Content) :
    Dict.get? (smartSave ok o Option.none (.obj attrs) ⟨[], n⟩).1.files p = some c ↔ InFile o (.obj attrs) p c := by
  unfold smartSave at h ⊢
  simp only at h ⊢
  have hl := saveVal_files ok o (.obj attrs) [] ⟨[], n⟩
  cases hr : (saveVal ok o [] Option.none (.obj attrs) ⟨[], n⟩).res with
  | none => rw [hr] at h; exact (nomatch h)
  | some rs =>
    rw [hr] at h
    simp only at h ⊢
    rw [write_get_other (fun e => hp e.symm), hl rs ht hr (fun k r => rfl) p c]
    constructor
    · rintro (⟨a, r, _, rfl, h1⟩ | h1)
      · exact h1
      · exact (nomatch h1)
    · intro h1
      exact Or.inl ⟨attrs, p, rfl, rfl, h1⟩

/-- What is left for the file of the object itself. -/
theorem obs_now_aux (o : Opts) (attrs now : Attrs) (lists : Lists) (recs nms : List String) (hnd : (Dict.keys attrs).Nodup)
    (_ht : TidyL attrs) (hnm : ∀ k, k ∈ nms ↔ k ∈ autoSep o.limit attrs ∨ k ∈ o.ignore)
    (hgone : ∀ k ∈ nms, Dict.get? now k = Option.none)
    (hleft : ∀ k, k ∉ nms → ∀ q, below now k q = (below attrs k q).bind (fun w => by
      classical exact if (∃ k ∈ q, k ∈ o.ignore) ∨ w.big o.limit then Option.none else some w))
    (q : List String) :
    obs (.obj (addBook now lists recs)) q = (obs (.obj attrs) q).bind (fun w => by
      classical exact if (∃ k ∈ q, k ∈ o.ignore) ∨ w.big o.limit then Option.none else some w) := by
  cases q with
  | nil =>
    simp [obs, Val.leaf, Leaf.big]
  | cons k q =>
    rw [obs_obj, obs_obj]
    cases hk : isBook k with
    | true => rfl
    | false =>
      simp only [Bool.false_eq_true, if_false]
      have hbel : below (addBook now lists recs) k q = below now k q := by
        unfold below
        rw [get?_addBook _ _ _ _ hk]
      rw [hbel]
      by_cases hkn : k ∈ nms
      · have : below now k q = Option.none := by
          unfold below
          rw [hgone k hkn]
        rw [this]
        rcases (hnm k).1 hkn with h1 | h1
        · obtain ⟨v, hv, ha⟩ := mem_autoSep h1
          have hg := Dict.get?_of_mem hnd hv
          have hb := (mem_autoSep_iff hnd hg).1 h1
          unfold below
          rw [hg]
          cases q with
          | nil => simp [obs, hb]
          | cons k' q =>
            cases v <;> first | exact hb.elim | simp [obs]
        · cases hb : below attrs k q with
          | none => rfl
          | some w =>
            simp only [Option.bind_some]
            rw [if_pos (Or.inl ⟨k, by simp, h1⟩)]
      · rw [hleft k hkn q]
        have hki : k ∉ o.ignore := fun hi => hkn ((hnm k).2 (Or.inr hi))
        cases hb : below attrs k q with
        | none => rfl
        | some w =>
          simp only [Option.bind_some]
          have : (∃ k', k' ∈ k :: q ∧ k' ∈ o.ignore) ↔ (∃ k', k' ∈ q ∧ k' ∈ o.ignore) := by simp [hki]
          by_cases hc : (∃ k', k' ∈ q ∧ k' ∈ o.ignore) ∨ w.big o.limit
          · rw [if_pos hc, if_pos (hc.imp_left this.2)]
          · rw [if_neg hc, if_neg (fun h => hc (h.imp_left this.1))]

mutual
theorem saveVal_now (ok : Nat → Bool) (o : Opts) : ∀ (v : Val) (path : List String) (st : St) (rs : Restores), Tidy v →
    (saveVal ok o path Option.none v st).res = some rs → ¬ v.leaf.big o.limit → ∀ q,
    obs (saveVal ok o path Option.none v st).now q = (obs v q).bind (fun w => by
      classical exact if (∃ k ∈ q, k ∈ o.ignore) ∨ w.big o.limit then Option.none else some w)
  | .obj attrs, path, st, rs, ht, h, _, q => by
    rw [Tidy] at ht
    rw [saveVal] at h ⊢
    generalize hn : (Option.none : Option (List String)).getD (autoSep o.limit attrs) ++ o.ignore = nms at h ⊢
    have hnm : ∀ k, k ∈ nms ↔ k ∈ autoSep o.limit attrs ∨ k ∈ o.ignore := by
      intro k
      rw [← hn]
      simp
    have hattrs := saveAttrs_now ok o attrs path nms st
    have hkeys := saveAttrs_keys ok o path nms attrs st
    cases hr : (saveAttrs ok o path nms attrs st).res with
    | none => rw [hr] at h; exact (nomatch h)
    | some rs1 =>
      rw [hr] at h
      simp only at h ⊢
      generalize hw : (setAside nms attrs).foldl (writeAside ok o path)
        ((saveAttrs ok o path nms attrs st).st, some ([], [], [])) = w at h ⊢
      obtain ⟨st', lists⟩ := w
      cases lists with
      | none => exact (nomatch h)
      | some lists =>
        simp only
        refine obs_now_aux o attrs _ lists _ nms ht.1 ht.2 hnm ?_ ?_ q
        · intro k hk
          rw [Dict.get?_eq_none_iff, hkeys]
          simp [hk]
        · intro k hk q
          refine hattrs rs1 ht.2 ht.1 hr ?_ k hk q
          intro k' v' hm' hk' hb
          exact hk' ((hnm k').2 (Or.inl ((mem_autoSep_iff ht.1 (Dict.get?_of_mem ht.1 hm')).2 hb)))
  | .array s x, path, st, rs, _, h, hb, q => by
    rw [saveVal]
    · cases q with
      | nil => simp only [obs, Option.bind_some]; rw [if_neg (by simpa using hb)]
      | cons k q => simp [obs]
    all_goals simp
  | .sparse n d i j, path, st, rs, _, h, hb, q => by
    rw [saveVal]
    · cases q with
      | nil => simp only [obs, Option.bind_some]; rw [if_neg (by simpa using hb)]
      | cons k q => simp [obs]
    all_goals simp
  | .plain x, path, st, rs, _, h, hb, q => by
    rw [saveVal]
    · cases q with
      | nil => simp only [obs, Option.bind_some]; rw [if_neg (by simpa using hb)]
      | cons k q => simp [obs]
    all_goals simp
  | .names l, path, st, rs, _, h, hb, q => by
    rw [saveVal]
    · cases q with
      | nil => simp only [obs, Option.bind_some]; rw [if_neg (by simpa using hb)]
      | cons k q => simp [obs]
    all_goals simp
  | .none, path, st, rs, _, h, hb, q => by
    rw [saveVal]
    · cases q with
      | nil => simp only [obs, Option.bind_some]; rw [if_neg (by simpa using hb)]
      | cons k q => simp [obs]
    all_goals simp
theorem saveAttrs_now (ok : Nat → Bool) (o : Opts) : ∀ (attrs : Attrs) (path gone : List String) (st : St) (rs : Restores),
    TidyL attrs → (Dict.keys attrs).Nodup → (saveAttrs ok o path gone attrs st).res = some rs →
    (∀ k v, (k, v) ∈ attrs → k ∉ gone → ¬ v.leaf.big o.limit) →
    ∀ k, k ∉ gone → ∀ q, below (saveAttrs ok o path gone attrs st).now k q = (below attrs k q).bind (fun w => by
      classical exact if (∃ k ∈ q, k ∈ o.ignore) ∨ w.big o.limit then Option.none else some w)
  | [], path, gone, st, rs, _, _, h, _, k, hk, q => by
    rw [saveAttrs]
    rfl
  | (k, v) :: rest, path, gone, st, rs, ht, hnd, h, hsm, k', hk', q => by
    rw [TidyL] at ht
    simp only [Dict.keys_cons, List.nodup_cons] at hnd
    rw [saveAttrs] at h ⊢
    by_cases hk : k ∈ gone
    · rw [if_pos hk] at h ⊢
      rw [saveAttrs_now ok o rest path gone st rs ht.2.2 hnd.2 h (fun k2 v2 hm => hsm k2 v2 (List.mem_cons_of_mem _ hm)) k' hk' q]
      congr 1
      unfold below
      rw [Dict.get?_cons, if_neg (by rintro rfl; exact hk' hk)]
    · rw [if_neg hk] at h ⊢
      simp only at h ⊢
      have hv := saveVal_now ok o v (path ++ [k]) st
      cases hr : (saveVal ok o (path ++ [k]) Option.none v st).res with
      | none => rw [hr] at h; exact (nomatch h)
      | some rs1 =>
        rw [hr] at h
        simp only at h ⊢
        obtain ⟨rs2, h2, _⟩ := Option.map_eq_some_iff.1 h
        have hv' := hv rs1 ht.2.1 hr (hsm k v (by simp) hk) q
        have hR := saveAttrs_now ok o rest path gone _ rs2 ht.2.2 hnd.2 h2 (fun k2 v2 hm => hsm k2 v2 (List.mem_cons_of_mem _ hm)) k' hk' q
        unfold below at hR ⊢
        rw [Dict.get?_cons, Dict.get?_cons]
        by_cases hkk : k = k'
        · simp only [hkk, if_true]
          rw [← hkk]
          exact hv'
        · simp only [hkk, if_false]
          exact hR
end

/-- **C162**, the file of the object itself: it holds what is neither stored apart nor to be ignored, and nothing else. -/
theorem C162_main (ok : Nat → Bool) (o : Opts) (attrs : Attrs) (st : St) (ht : Tidy (.obj attrs))
    (h : (smartSave ok o Option.none (.obj attrs) st).2.2 = true) :
    ∃ m, Dict.get? (smartSave ok o Option.none (.obj attrs) st).1.files [] = some (.pickled m) ∧
      ∀ q w, obs m q = some w ↔ obs (.obj attrs) q = some w ∧ (∀ k ∈ q, k ∉ o.ignore) ∧ ¬ w.big o.limit := by
  unfold smartSave at h ⊢
  simp only at h ⊢
  have hl := saveVal_now ok o (.obj attrs) [] st
  cases hr : (saveVal ok o [] Option.none (.obj attrs) st).res with
  | none => rw [hr] at h; exact (nomatch h)
  | some rs =>
    rw [hr] at h
    simp only at h ⊢
    refine ⟨_, write_ok h, fun q w => ?_⟩
    rw [hl rs ht hr (by simp [Val.leaf, Leaf.big]) q]
    cases hq : obs (.obj attrs) q with
    | none => simp
    | some w' =>
      simp only [Option.bind_some, Option.some.injEq]
      constructor
      · intro he
        split at he
        · exact (nomatch he)
        · rename_i hno
          obtain rfl := Option.some.inj he
          push Not at hno
          exact ⟨rfl, hno.1, hno.2⟩
      · rintro ⟨rfl, h1, h2⟩
        rw [if_neg]
        push Not
        exact ⟨h1, h2⟩

/-! ## C163 -/

theorem loadNumpys_need (F : Dict (List String) Content) (path : List String) : ∀ (ns : List String) (a a' : Attrs),
    ns.foldlM (loadNumpy F path) a = some a' → (∀ k ∈ ns, (Dict.get? F (path ++ [k])).isSome) ∧
      ∀ k, k ∉ ns → Dict.get? a' k = Dict.get? a k
  | [], a, a', h => by
    simp only [List.foldlM_nil, Option.pure_def, Option.some.injEq] at h
    simp [h]
  | n :: ns, a, a', h => by
    rw [List.foldlM_cons] at h
    obtain ⟨b, hb, h⟩ := Option.bind_eq_some_iff.1 h
    obtain ⟨h1, h2⟩ := loadNumpys_need F path ns b a' h
    unfold loadNumpy at hb
    split at hb
    · rename_i he
      obtain rfl := Option.some.inj hb
      refine ⟨?_, ?_⟩
      · intro k hk
        rcases List.mem_cons.1 hk with rfl | hk
        · rw [he]; rfl
        · exact h1 k hk
      · intro k hk
        simp only [List.mem_cons, not_or] at hk
        rw [h2 k hk.2, Dict.get?_set, if_neg (fun e => hk.1 e.symm)]
    · exact (nomatch hb)

theorem loadScipys_need (F : Dict (List String) Content) (path : List String) : ∀ (ns : List String) (a a' : Attrs),
    ns.foldlM (loadScipy F path) a = some a' → ∀ k ∈ ns, (Dict.get? F (path ++ [k])).isSome ∧ (Dict.get? F (path ++ [k, "data"])).isSome ∧
      (Dict.get? F (path ++ [k, "indptr"])).isSome ∧ (Dict.get? F (path ++ [k, "indices"])).isSome
  | [], a, a', h => by simp
  | n :: ns, a, a', h => by
    rw [List.foldlM_cons] at h
    obtain ⟨b, hb, h⟩ := Option.bind_eq_some_iff.1 h
    have h1 := loadScipys_need F path ns b a' h
    unfold loadScipy at hb
    split at hb
    · rename_i e1 e2 e3 e4
      intro k hk
      rcases List.mem_cons.1 hk with rfl | hk
      · rw [e1, e2, e3, e4]; exact ⟨rfl, rfl, rfl, rfl⟩
      · exact h1 k hk
    · exact (nomatch hb)

theorem loadAttrs_keys (F : Dict (List String) Content) (path recs : List String) : ∀ (a a' : Attrs), loadAttrs F path recs a = some a' →
    Dict.keys a' = Dict.keys a
  | [], a', h => by
    rw [loadAttrs] at h
    obtain rfl := Option.some.inj h
    rfl
  | (k, v) :: rest, a', h => by
    rw [loadAttrs] at h
    obtain ⟨v', _, h⟩ := Option.bind_eq_some_iff.1 h
    obtain ⟨rest', h2, h⟩ := Option.bind_eq_some_iff.1 h
    obtain rfl := Option.some.inj h
    rw [Dict.keys_cons, Dict.keys_cons, loadAttrs_keys F path recs rest rest' h2]

mutual
theorem saveVal_need (ok : Nat → Bool) (o : Opts) (hign : ∀ k ∈ o.ignore, isBook k = false) : ∀ (v : Val) (path : List String) (st : St)
    (rs : Restores), Tidy v → (saveVal ok o path Option.none v st).res = some rs → ∀ (F : Dict (List String) Content) (w : Val),
    loadVal F path (saveVal ok o path Option.none v st).now = some w → ∀ a, v = .obj a → ∀ r c, InFile o v r c →
    (Dict.get? F (path ++ r)).isSome
  | .obj attrs, path, st, rs, ht, h, F, w, hload, _, _, r, c, hin => by
    rw [Tidy] at ht
    rw [saveVal] at h hload
    generalize hn : (Option.none : Option (List String)).getD (autoSep o.limit attrs) ++ o.ignore = nms at h hload
    have hnm : ∀ k, k ∈ nms ↔ k ∈ autoSep o.limit attrs ∨ k ∈ o.ignore := by
      intro k
      rw [← hn]
      simp
    have hattrs := saveAttrs_need ok o hign attrs path nms st
    cases hr : (saveAttrs ok o path nms attrs st).res with
    | none => rw [hr] at h; exact (nomatch h)
    | some rs1 =>
      rw [hr] at h hload
      simp only at h hload
      have hA := hattrs rs1 ht.2 ht.1 hr F
      generalize hw : (setAside nms attrs).foldl (writeAside ok o path)
        ((saveAttrs ok o path nms attrs st).st, some ([], [], [])) = w' at h hload
      obtain ⟨st', lists⟩ := w'
      cases lists with
      | none => exact (nomatch h)
      | some lists =>
        simp only at hload
        have hlists := (writeAsides_some _ (setAside_WF nms attrs) hw).1
        have hmem := fun k => grow_mem o.ignore (setAside nms attrs) ([], [], []) k
        rw [← hlists] at hmem
        generalize hrc : objNames nms attrs = recs at hload
        have hb0 : ∀ now, book (addBook now lists recs) "__recursive_saveloads" = recs := by
          intro now
          simp [book, addBook, Dict.get?_set]
        rw [loadVal] at hload
        simp only [Option.bind_eq_bind, hb0] at hload
        obtain ⟨a1, h1, hload⟩ := Option.bind_eq_some_iff.1 hload
        obtain ⟨a2, h2, hload⟩ := Option.bind_eq_some_iff.1 hload
        obtain ⟨a3, h3, hload⟩ := Option.bind_eq_some_iff.1 hload
        have hrecs : ∀ k ∈ recs, isBook k = false := by
          intro k hk
          rw [← hrc, mem_objNames] at hk
          obtain ⟨_, a, hm⟩ := hk
          cases hb : isBook k with
          | false => rfl
          | true =>
            obtain ⟨l, hl⟩ := (mem_TidyL ht.2 hm).1 hb
            exact (nomatch hl)
        have hb1 : ∀ b, isBook b = true → Dict.get? a1 b = Dict.get? (addBook (saveAttrs ok o path nms attrs st).now lists recs) b := by
          intro b hb
          rw [get?_loadAttrs F path recs b _ _ h1]
          have : b ∉ recs := fun hm => by rw [hrecs b hm] at hb; exact (nomatch hb)
          simp [this]
        have e1 : book a1 "__numpys" = lists.1 := by
          unfold book
          rw [hb1 _ (by decide)]
          simp [addBook, Dict.get?_set]
        rw [e1] at h2
        obtain ⟨n1, n2⟩ := loadNumpys_need F path _ _ _ h2
        have hnb : ∀ k, k ∈ nms → isBook k = false := by
          intro k hk
          rcases (hnm k).1 hk with h1 | h1
          · exact autoSep_book ht.2 h1
          · exact hign k h1
        have hkeys : ∀ k v, (k, v) ∈ setAside nms attrs → k ∈ nms := by
          intro k v hm
          have := Dict.get?_of_mem (setAside_WF nms attrs) hm
          rw [setAside_get] at this
          by_contra hk
          rw [if_neg hk] at this
          exact (nomatch this)
        have e2 : book a2 "__scipys" = lists.2.1 := by
          unfold book
          rw [n2 "__scipys" (fun hm => by
            rcases (hmem _).1.1 hm with h0 | ⟨v, hv, _⟩
            · exact (nomatch h0)
            · have := hnb _ (hkeys _ _ hv)
              revert this
              decide), hb1 _ (by decide)]
          simp [addBook, Dict.get?_set]
        rw [e2] at h3
        have n3 := loadScipys_need F path _ _ _ h3
        rw [inFile_obj] at hin
        obtain ⟨k, r, v, rfl, hbk, hi, hg, hin⟩ := hin
        by_cases hv : ∃ a, v = .obj a
        · obtain ⟨a, rfl⟩ := hv
          have hkn : k ∉ nms := by
            rw [hnm]
            rintro (h1 | h1)
            · exact ((mem_autoSep_iff ht.1 hg).1 h1)
            · exact hi h1
          have hkr : k ∈ recs := by
            rw [← hrc, mem_objNames]
            exact ⟨hkn, a, Dict.mem_of_get? hg⟩
          refine hA ?_ k a hkn hg r c hin
          intro k' x hk' hm' hx
          obtain ⟨a', hm'⟩ := hm'
          have hk'r : k' ∈ recs := by
            rw [← hrc, mem_objNames]
            exact ⟨hk', a', hm'⟩
          have hnb' := hrecs k' hk'r
          have hgl := get?_loadAttrs F path recs k' _ _ h1
          rw [get?_addBook _ _ _ _ hnb', hx] at hgl
          simp only [Option.bind_some, if_pos hk'r] at hgl
          cases hlv : loadVal F (path ++ [k']) x with
          | some y => rfl
          | none =>
            rw [hlv] at hgl
            have hin1 : k' ∈ Dict.keys a1 := by
              have : Dict.keys a1 = Dict.keys (addBook (saveAttrs ok o path nms attrs st).now lists recs) := loadAttrs_keys F path recs _ _ h1
              rw [this, ← Dict.get?_isSome_iff, get?_addBook _ _ _ _ hnb', hx]
              rfl
            rw [← Dict.get?_isSome_iff, hgl] at hin1
            exact (nomatch hin1)
        · rw [inFile_leaf o v (fun a e => hv ⟨a, e⟩)] at hin
          have hkn : k ∈ nms := (hnm k).2 (Or.inl ((mem_autoSep_iff ht.1 hg).2 hin.1))
          have hms : (k, v) ∈ setAside nms attrs := by
            refine Dict.mem_of_get? ?_
            rw [setAside_get, if_pos hkn, hg]
          cases v with
          | array s x =>
            obtain ⟨rfl, _⟩ := hin.2
            exact n1 k ((hmem k).1.2 (Or.inr ⟨_, hms, by simp [isNp, hi]⟩))
          | sparse n d i j =>
            have := n3 k ((hmem k).2.1.2 (Or.inr ⟨_, hms, by simp [isSp, hi]⟩))
            rcases hin.2 with ⟨rfl, _⟩ | ⟨rfl, _⟩ | ⟨rfl, _⟩ | ⟨rfl, _⟩
            · exact this.1
            · exact this.2.1
            · exact this.2.2.1
            · exact this.2.2.2
          | _ => exact hin.1.elim
  | .array s x, path, st, rs, _, h, F, w, _, a, ha, r, c, _ => (nomatch ha)
  | .sparse n d i j, path, st, rs, _, h, F, w, _, a, ha, r, c, _ => (nomatch ha)
  | .plain x, path, st, rs, _, h, F, w, _, a, ha, r, c, _ => (nomatch ha)
  | .names l, path, st, rs, _, h, F, w, _, a, ha, r, c, _ => (nomatch ha)
  | .none, path, st, rs, _, h, F, w, _, a, ha, r, c, _ => (nomatch ha)
theorem saveAttrs_need (ok : Nat → Bool) (o : Opts) (hign : ∀ k ∈ o.ignore, isBook k = false) : ∀ (attrs : Attrs)
    (path gone : List String) (st : St) (rs : Restores), TidyL attrs → (Dict.keys attrs).Nodup →
    (saveAttrs ok o path gone attrs st).res = some rs → ∀ (F : Dict (List String) Content),
    (∀ k x, k ∉ gone → (∃ a, (k, Val.obj a) ∈ attrs) → Dict.get? (saveAttrs ok o path gone attrs st).now k = some x →
      (loadVal F (path ++ [k]) x).isSome) →
    ∀ k a, k ∉ gone → Dict.get? attrs k = some (.obj a) → ∀ r c, InFile o (.obj a) r c → (Dict.get? F (path ++ k :: r)).isSome
  | [], path, gone, st, rs, _, _, h, F, _, k, a, _, hg, r, c, _ => (nomatch hg)
  | (k, v) :: rest, path, gone, st, rs, ht, hnd, h, F, hload, k', a, hk', hg, r, c, hin => by
    rw [TidyL] at ht
    simp only [Dict.keys_cons, List.nodup_cons] at hnd
    rw [saveAttrs] at h hload
    by_cases hk : k ∈ gone
    · rw [if_pos hk] at h hload
      rw [Dict.get?_cons, if_neg (by rintro rfl; exact hk' hk)] at hg
      exact saveAttrs_need ok o hign rest path gone st rs ht.2.2 hnd.2 h F
        (fun k2 x hk2 ⟨a2, hm2⟩ => hload k2 x hk2 ⟨a2, List.mem_cons_of_mem _ hm2⟩) k' a hk' hg r c hin
    · rw [if_neg hk] at h hload
      simp only at h hload
      have hv := saveVal_need ok o hign v (path ++ [k]) st
      cases hr : (saveVal ok o (path ++ [k]) Option.none v st).res with
      | none => rw [hr] at h; exact (nomatch h)
      | some rs1 =>
        rw [hr] at h hload
        simp only at h hload
        obtain ⟨rs2, h2, _⟩ := Option.map_eq_some_iff.1 h
        rw [Dict.get?_cons] at hg
        by_cases hkk : k = k'
        · rw [if_pos hkk] at hg
          obtain rfl := Option.some.inj hg
          subst hkk
          have hl := hload k _ hk ⟨a, by simp⟩ (by rw [Dict.get?_cons, if_pos rfl])
          obtain ⟨w, hw⟩ := Option.isSome_iff_exists.1 hl
          have := hv rs1 ht.2.1 hr F w hw a rfl r c hin
          simpa using this
        · rw [if_neg hkk] at hg
          refine saveAttrs_need ok o hign rest path gone _ rs2 ht.2.2 hnd.2 h2 F ?_ k' a hk' hg r c hin
          intro k2 x hk2 ⟨a2, hm2⟩ hx
          refine hload k2 x hk2 ⟨a2, List.mem_cons_of_mem _ hm2⟩ ?_
          rw [Dict.get?_cons, if_neg]
          · exact hx
          · rintro rfl
            exact hnd.1 (List.mem_map.2 ⟨_, hm2, rfl⟩)
end

/-- **C163**: if one of the files written is missing, loading is refused; no object comes back with a part of it missing. -/
theorem C163_missing (ok : Nat → Bool) (o : Opts) (attrs : Attrs) (n : Nat) (hign : ∀ k ∈ o.ignore, isBook k = false)
    (ht : Tidy (.obj attrs)) (h : (smartSave ok o Option.none (.obj attrs) ⟨[], n⟩).2.2 = true) (p : List String)
    (hp : (Dict.get? (smartSave ok o Option.none (.obj attrs) ⟨[], n⟩).1.files p).isSome) (F : Dict (List String) Content)
    (hF : ∀ q, q ≠ p → Dict.get? F q = Dict.get? (smartSave ok o Option.none (.obj attrs) ⟨[], n⟩).1.files q)
    (hmiss : Dict.get? F p = Option.none) : load F = Option.none := by
  by_cases hp0 : p = []
  · unfold load
    rw [← hp0, hmiss]
  · obtain ⟨c, hc⟩ := Option.isSome_iff_exists.1 hp
    have hin := (C162_files ok o attrs n ht h p hp0 c).1 hc
    have hroot := hF [] (fun e => hp0 e.symm)
    unfold smartSave at h hroot
    simp only at h hroot
    have hl := saveVal_need ok o hign (.obj attrs) [] ⟨[], n⟩
    cases hr : (saveVal ok o [] Option.none (.obj attrs) ⟨[], n⟩).res with
    | none => rw [hr] at h; exact (nomatch h)
    | some rs =>
      rw [hr] at h hroot
      simp only at h hroot
      rw [write_ok h] at hroot
      unfold load
      rw [hroot]
      simp only
      cases hlv : loadVal F [] (saveVal ok o [] Option.none (.obj attrs) ⟨[], n⟩).now with
      | none => rfl
      | some w =>
        have := hl rs ht hr F w hlv attrs rfl p c hin
        rw [List.nil_append, hmiss] at this
        exact (nomatch this)

/-- An object inside an object; large and small arrays, a large array to be ignored. -/
def nested : Attrs := [("inner", .obj [("x", .array 5 1), ("t", .array 9 4)]), ("y", .sparse 10 2 3 4), ("z", .array 4 7)]

example : Tidy (.obj nested) ∧ (smartSave (fun _ => true) ⟨5, ["t"]⟩ Option.none (.obj nested) ⟨[], 0⟩).2.2 = true ∧
    Dict.keys (smartSave (fun _ => true) ⟨5, ["t"]⟩ Option.none (.obj nested) ⟨[], 0⟩).1.files =
      [["inner", "x"], ["y", "data"], ["y", "indptr"], ["y", "indices"], ["y"], []] := by
  refine ⟨?_, by decide, by decide⟩
  simp [nested, Tidy, TidyL, Dict.keys, isBook]

end Verif.Setup.Save
