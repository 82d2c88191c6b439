import Verif.Setup.SaveHandle
import Verif.Setup.PropsFiles

/-!
# C246: saving to an open file
-/

namespace Verif.Setup.Save

open Verif.Py

/-! ## Specification -/

/-- Never saved by name: none of the four bookkeeping attributes is there. -/
def NeverSaved (attrs : Attrs) : Prop := ∀ b, isBook b = true → b ∉ Dict.keys attrs

/-! ## Auxiliary -/

theorem get?_none_of_notKey {attrs : Attrs} {b : String} (h : b ∉ Dict.keys attrs) : Dict.get? attrs b = Option.none := by
  cases hg : Dict.get? attrs b with
  | none => rfl
  | some v => exact absurd (List.mem_map.2 ⟨_, Dict.mem_of_get? hg, rfl⟩) h

theorem loadAttrs_nil (F : Dict (List String) Content) (path : List String) : ∀ a : Attrs,
    loadAttrs F path [] a = some a
  | [] => by rw [loadAttrs]
  | (k, v) :: rest => by
    rw [loadAttrs, loadAttrs_nil F path rest]
    simp

theorem get?_map_touch (f : Val → Val) (hf : ∀ l, f (.names l) = .names l) (k b : String) (l : List String) :
    ∀ attrs : Attrs, Dict.get? attrs b = some (.names l) → Dict.get? (attrs.map (touch f k)) b = some (.names l)
  | [], h => nomatch h
  | (k', v) :: rest, h => by
    have ih := get?_map_touch f hf k b l rest
    rw [List.map_cons]
    have he : touch f k (k', v) = (k', if k' = k then f v else v) := by
      unfold touch
      by_cases hk : k' = k <;> simp [hk]
    rw [he, Dict.get?_cons]
    rw [Dict.get?_cons] at h
    by_cases hb : k' = b
    · rw [if_pos hb] at h ⊢
      obtain rfl := Option.some.inj h
      by_cases hk : k' = k <;> simp [hk, hf]
    · rw [if_neg hb] at h ⊢
      exact ih h

theorem updAt_names (f : Attrs → Attrs) (p : List String) (l : List String) : updAt f p (.names l) = .names l := by
  cases p <;> rw [updAt] <;> simp

theorem restoreAll_names : ∀ (rs : Restores) (attrs : Attrs), (∀ r ∈ rs, ∃ k p, r.1 = k :: p) →
    ∃ attrs', restoreAll rs (.obj attrs) = .obj attrs' ∧
      ∀ b l, Dict.get? attrs b = some (.names l) → Dict.get? attrs' b = some (.names l)
  | [], attrs, _ => ⟨attrs, rfl, fun _ _ h => h⟩
  | (q, d) :: rs, attrs, h => by
    obtain ⟨k, p, hq⟩ := h (q, d) (by simp)
    simp only at hq
    subst hq
    rw [restoreAll_cons, updAt_cons]
    obtain ⟨attrs', h1, h2⟩ := restoreAll_names rs (attrs.map (touch (updAt (fun a => Dict.update a d) p) k))
      (fun r hr => h r (List.mem_cons_of_mem _ hr))
    exact ⟨attrs', h1, fun b l hb => h2 b l (get?_map_touch _ (updAt_names _ p) k b l attrs hb)⟩

theorem loadNumpys_get (F : Dict (List String) Content) (path : List String) : ∀ (ns : List String) (a a' : Attrs),
    ns.foldlM (loadNumpy F path) a = some a' → ∀ k, (k ∈ ns → ∃ s c, Dict.get? F (path ++ [k]) = some (.npyArray s c) ∧
      Dict.get? a' k = some (.array s c)) ∧ (k ∉ ns → Dict.get? a' k = Dict.get? a k)
  | [], a, a', h, k => by
    simp only [List.foldlM_nil, Option.pure_def, Option.some.injEq] at h
    simp [h]
  | n :: ns, a, a', h, k => by
    rw [List.foldlM_cons] at h
    obtain ⟨b, hb, h⟩ := Option.bind_eq_some_iff.1 h
    have ih := loadNumpys_get F path ns b a' h k
    unfold loadNumpy at hb
    split at hb
    · rename_i s c he
      obtain rfl := Option.some.inj hb
      by_cases hk : k ∈ ns
      · exact ⟨fun _ => ih.1 hk, fun hn => absurd (List.mem_cons_of_mem _ hk) hn⟩
      · have h2 := ih.2 hk
        rw [Dict.get?_set] at h2
        by_cases hnk : n = k
        · subst hnk
          rw [if_pos rfl] at h2
          exact ⟨fun _ => ⟨s, c, he, h2⟩, fun hn => absurd (by simp) hn⟩
        · rw [if_neg hnk] at h2
          refine ⟨fun hm => ?_, fun _ => h2⟩
          rcases List.mem_cons.1 hm with e | e
          · exact absurd e.symm hnk
          · exact absurd e hk
    · exact (nomatch hb)

theorem loadScipys_get (F : Dict (List String) Content) (path : List String) : ∀ (ns : List String) (a a' : Attrs),
    ns.foldlM (loadScipy F path) a = some a' → ∀ k, (k ∈ ns → ∃ n d i j, Dict.get? F (path ++ [k]) = some (.shell n) ∧
      Dict.get? F (path ++ [k, "data"]) = some (.npy d) ∧ Dict.get? F (path ++ [k, "indptr"]) = some (.npy i) ∧
      Dict.get? F (path ++ [k, "indices"]) = some (.npy j) ∧
      Dict.get? a' k = some (.sparse n d i j)) ∧ (k ∉ ns → Dict.get? a' k = Dict.get? a k)
  | [], a, a', h, k => by
    simp only [List.foldlM_nil, Option.pure_def, Option.some.injEq] at h
    simp [h]
  | m :: ns, a, a', h, k => by
    rw [List.foldlM_cons] at h
    obtain ⟨b, hb, h⟩ := Option.bind_eq_some_iff.1 h
    have ih := loadScipys_get F path ns b a' h k
    unfold loadScipy at hb
    split at hb
    · rename_i n d i j e1 e2 e3 e4
      obtain rfl := Option.some.inj hb
      by_cases hk : k ∈ ns
      · exact ⟨fun _ => ih.1 hk, fun hn => absurd (List.mem_cons_of_mem _ hk) hn⟩
      · have h2 := ih.2 hk
        rw [Dict.get?_set] at h2
        by_cases hnk : m = k
        · subst hnk
          rw [if_pos rfl] at h2
          exact ⟨fun _ => ⟨n, d, i, j, e1, e2, e3, e4, h2⟩, fun hn => absurd (by simp) hn⟩
        · rw [if_neg hnk] at h2
          refine ⟨fun hm => ?_, fun _ => h2⟩
          rcases List.mem_cons.1 hm with e | e
          · exact absurd e.symm hnk
          · exact absurd e hk
    · exact (nomatch hb)

/-- Loading an object whose bookkeeping attributes name the attributes in `ls`. -/
theorem loadVal_books (F : Dict (List String) Content) (a : Attrs) (w : Val) (ns ss is : List String)
    (h1 : Dict.get? a "__numpys" = some (.names ns)) (h2 : Dict.get? a "__scipys" = some (.names ss))
    (h3 : Dict.get? a "__ignoreds" = some (.names is)) (hn : ∀ k ∈ ns, isBook k = false)
    (hs : ∀ k ∈ ss, isBook k = false) (hl : loadVal F [] (.obj a) = some w) :
    ∃ a', w = .obj a' ∧ ∀ k, (k ∈ is → Dict.get? a' k = some .none) ∧
      (k ∉ is → k ∉ ss → k ∈ ns → ∃ s c, Dict.get? F [k] = some (.npyArray s c) ∧ Dict.get? a' k = some (.array s c)) ∧
      (k ∉ is → k ∈ ss → ∃ n d i j, Dict.get? F [k] = some (.shell n) ∧ Dict.get? F [k, "data"] = some (.npy d) ∧
        Dict.get? F [k, "indptr"] = some (.npy i) ∧ Dict.get? F [k, "indices"] = some (.npy j) ∧
        Dict.get? a' k = some (.sparse n d i j)) := by
  rw [loadVal] at hl
  simp only [Option.bind_eq_bind] at hl
  obtain ⟨a1, e1, hl⟩ := Option.bind_eq_some_iff.1 hl
  have hnm : ∀ b l, Dict.get? a b = some (.names l) → Dict.get? a1 b = some (.names l) := by
    intro b l hb
    rw [get?_loadAttrs F [] _ b a a1 e1, hb]
    simp only [Option.bind_some]
    split
    · rw [loadVal]
      simp
    · rfl
  have b1 : book a1 "__numpys" = ns := by unfold book; rw [hnm _ _ h1]
  obtain ⟨a2, e2, hl⟩ := Option.bind_eq_some_iff.1 hl
  rw [b1] at e2
  have g2 := loadNumpys_get F [] ns a1 a2 e2
  have hnot : ∀ b, isBook b = true → b ∉ ns := fun b hb hm => by rw [hn b hm] at hb; exact (nomatch hb)
  have hnot' : ∀ b, isBook b = true → b ∉ ss := fun b hb hm => by rw [hs b hm] at hb; exact (nomatch hb)
  have b2 : book a2 "__scipys" = ss := by
    unfold book
    rw [(g2 _).2 (hnot _ (by decide)), hnm _ _ h2]
  obtain ⟨a3, e3, hl⟩ := Option.bind_eq_some_iff.1 hl
  rw [b2] at e3
  have g3 := loadScipys_get F [] ss a2 a3 e3
  have b3 : book a3 "__ignoreds" = is := by
    unfold book
    rw [(g3 _).2 (hnot' _ (by decide)), (g2 _).2 (hnot _ (by decide)), hnm _ _ h3]
  rw [b3] at hl
  refine ⟨_, (Option.some.inj hl).symm, fun k => ⟨fun hk => ?_, fun hk hk' hk'' => ?_, fun hk hk' => ?_⟩⟩
  · rw [setNones, if_pos hk]
  · rw [setNones, if_neg hk, (g3 k).2 hk']
    exact (g2 k).1 hk''
  · rw [setNones, if_neg hk]
    exact (g3 k).1 hk'

/-! ## C246 -/

/-- C246, in part: an object that was never saved by name and is saved to an open file is loaded from it
exactly as it was, with all attributes, whatever the options and the other files.  Missing: objects that were
saved by name before (`C246_stale`, `C246_lost`, `C246_false`). -/
theorem C246_partial (ok : Nat → Bool) (o : Opts) (sep : Option (List String)) (attrs : Attrs) (st : St)
    (hv : NeverSaved attrs) (h : (saveTo ok .handle o sep (.obj attrs) st).2.2 = true) :
    load (saveTo ok .handle o sep (.obj attrs) st).1.files = some (.obj attrs) := by
  unfold saveTo at h ⊢
  simp only at h ⊢
  unfold load
  rw [write_ok h]
  simp only
  have hb : ∀ b, isBook b = true → book attrs b = [] := by
    intro b hb
    unfold book
    rw [get?_none_of_notKey (hv b hb)]
  rw [loadVal, hb _ (by decide), loadAttrs_nil]
  simp only [Option.bind_eq_bind, Option.bind_some, hb "__numpys" (by decide), hb "__scipys" (by decide),
    hb "__ignoreds" (by decide), List.foldlM_nil, Option.pure_def, List.foldl_nil]

/-- C246: saving to an open file writes nothing but that file and leaves the object as it is. -/
theorem C246_only (ok : Nat → Bool) (o : Opts) (sep : Option (List String)) (v : Val) (st : St) :
    (saveTo ok .handle o sep v st).2.1 = v ∧
    ∀ p, p ≠ [] → Dict.get? (saveTo ok .handle o sep v st).1.files p = Dict.get? st.files p :=
  ⟨rfl, fun p hp => by
    unfold saveTo
    exact write_get_other (Ne.symm hp)⟩

/-- What saving by name leaves in the object. -/
theorem saved_books (ok : Nat → Bool) (o : Opts) (attrs : Attrs) (st : St) (ht : Tidy (.obj attrs))
    (hign : ∀ k ∈ o.ignore, isBook k = false)
    (h : (saveTo ok .name o Option.none (.obj attrs) st).2.2 = true) :
    ∃ a ns ss is, (saveTo ok .name o Option.none (.obj attrs) st).2.1 = .obj a ∧
      Dict.get? a "__numpys" = some (.names ns) ∧ Dict.get? a "__scipys" = some (.names ss) ∧
      Dict.get? a "__ignoreds" = some (.names is) ∧ (∀ k ∈ ns, isBook k = false) ∧ (∀ k ∈ ss, isBook k = false) ∧
      ∀ k v, Dict.get? attrs k = some v →
        (k ∈ o.ignore → k ∈ is) ∧
        (v.leaf.big o.limit → k ∉ o.ignore → k ∉ is ∧
          ((∃ s c, v = .array s c) → k ∈ ns ∧ k ∉ ss) ∧ ((∃ n d i j, v = .sparse n d i j) → k ∈ ss)) := by
  unfold saveTo at h ⊢
  simp only at h ⊢
  unfold smartSave at h ⊢
  simp only at h ⊢
  rw [Tidy] at ht
  cases hsv : (saveVal ok o [] Option.none (.obj attrs) st).res with
  | none => rw [hsv] at h; exact (nomatch h)
  | some rs =>
    rw [hsv] at h
    simp only at h ⊢
    clear h
    rw [saveVal] at hsv ⊢
    generalize hn : (Option.none : Option (List String)).getD (autoSep o.limit attrs) ++ o.ignore = nms at hsv ⊢
    have hnm : ∀ k, k ∈ nms ↔ k ∈ autoSep o.limit attrs ∨ k ∈ o.ignore := by
      intro k
      rw [← hn]
      simp
    have hheads := saveAttrs_heads ok o [] nms attrs st
    cases hr : (saveAttrs ok o [] nms attrs st).res with
    | none => rw [hr] at hsv; exact (nomatch hsv)
    | some rs1 =>
      rw [hr] at hsv
      simp only at hsv ⊢
      generalize hw : (setAside nms attrs).foldl (writeAside ok o [])
        ((saveAttrs ok o [] nms attrs st).st, some ([], [], [])) = w at hsv ⊢
      obtain ⟨st', lists⟩ := w
      cases lists with
      | none => exact (nomatch hsv)
      | some lists =>
        simp only at hsv ⊢
        obtain rfl := Option.some.inj hsv
        rw [restoreAll_append]
        obtain ⟨attrs', he, hnames⟩ := restoreAll_names rs1
          (addBook (saveAttrs ok o [] nms attrs st).now lists (objNames nms attrs)) (fun r hr' => by
            obtain ⟨k', p, a, h1, _⟩ := hheads rs1 hr r hr'
            exact ⟨k', p, h1⟩)
        rw [he]
        have hfin : restoreAll [([], setAside nms attrs)] (.obj attrs')
            = .obj (Dict.update attrs' (setAside nms attrs)) := by
          rw [restoreAll_cons, updAt]
          rfl
        rw [hfin]
        have hlists := (writeAsides_some _ (setAside_WF nms attrs) hw).1
        have hmem := fun k => grow_mem o.ignore (setAside nms attrs) ([], [], []) k
        rw [← hlists] at hmem
        have hbn : ∀ k ∈ nms, isBook k = false := by
          intro k hk
          rcases (hnm k).1 hk with hk | hk
          · exact autoSep_book ht.2 hk
          · exact hign k hk
        have hbk : ∀ b l, isBook b = true →
            Dict.get? (addBook (saveAttrs ok o [] nms attrs st).now lists (objNames nms attrs)) b = some (.names l) →
            Dict.get? (Dict.update attrs' (setAside nms attrs)) b = some (.names l) := by
          intro b l hb hl
          have : b ∉ nms := fun hm => by rw [hbn b hm] at hb; exact (nomatch hb)
          rw [Dict.get?_update (setAside_WF _ _), setAside_get, if_neg this, hnames b l hl]
          rfl
        have hin : ∀ k v, (k, v) ∈ setAside nms attrs → k ∈ nms ∧ Dict.get? attrs k = some v := by
          intro k v hm
          have := Dict.get?_of_mem (setAside_WF nms attrs) hm
          rw [setAside_get] at this
          by_cases hk : k ∈ nms
          · rw [if_pos hk] at this; exact ⟨hk, this⟩
          · rw [if_neg hk] at this; exact (nomatch this)
        have hto : ∀ k v, k ∈ nms → Dict.get? attrs k = some v → (k, v) ∈ setAside nms attrs := by
          intro k v hk hv
          refine Dict.mem_of_get? ?_
          rw [setAside_get, if_pos hk, hv]
        refine ⟨_, lists.1, lists.2.1, lists.2.2, rfl, hbk _ _ (by decide) (by simp [addBook, Dict.get?_set]),
          hbk _ _ (by decide) (by simp [addBook, Dict.get?_set]), hbk _ _ (by decide) (by simp [addBook, Dict.get?_set]),
          ?_, ?_, ?_⟩
        · intro k hk
          rcases (hmem k).1.1 hk with hk | ⟨v, hv, _⟩
          · simp at hk
          · exact hbn k (hin k v hv).1
        · intro k hk
          rcases (hmem k).2.1.1 hk with hk | ⟨v, hv, _⟩
          · simp at hk
          · exact hbn k (hin k v hv).1
        · intro k v hv
          have huniq : ∀ v', (k, v') ∈ setAside nms attrs → v' = v := by
            intro v' hm
            have := (hin k v' hm).2
            rw [hv] at this
            exact (Option.some.inj this).symm
          refine ⟨fun hk => ?_, fun hbig hk => ?_⟩
          · refine (hmem k).2.2.2 (Or.inr ⟨v, hto k v ((hnm k).2 (Or.inr hk)) hv, ?_⟩)
            cases v <;> simp [isIg, isNp, isSp, hk]
          · have hm := hto k v ((hnm k).2 (Or.inl ((mem_autoSep_iff ht.1 hv).2 hbig))) hv
            refine ⟨fun hmi => ?_, ?_, ?_⟩
            · rcases (hmem k).2.2.1 hmi with hmi | ⟨v', hv', hig⟩
              · simp at hmi
              · obtain rfl := huniq v' hv'
                cases v' with
                | array s c => simp [isIg, isNp, isSp, hk] at hig
                | sparse n d i j => simp [isIg, isNp, isSp, hk] at hig
                | _ => exact hbig.elim
            · rintro ⟨s, c, rfl⟩
              refine ⟨(hmem k).1.2 (Or.inr ⟨_, hm, by simp [isNp, hk]⟩), fun hms => ?_⟩
              rcases (hmem k).2.1.1 hms with hms | ⟨v', hv', hsp⟩
              · simp at hms
              · obtain rfl := huniq v' hv'
                simp [isSp] at hsp
            · rintro ⟨n, d, i, j, rfl⟩
              exact (hmem k).2.1.2 (Or.inr ⟨_, hm, by simp [isSp, hk]⟩)

/-- C246: if the object was saved by name before, then a large array is not read from the open file it was
saved to afterwards, although it is stored there: it is read from the file with the name of the attribute next
to it, whatever that holds; without that file the object cannot be loaded.  Likewise for sparse matrices. -/
theorem C246_stale (ok ok' : Nat → Bool) (o o' : Opts) (sep' : Option (List String)) (attrs : Attrs) (st st' : St)
    (ht : Tidy (.obj attrs)) (hign : ∀ k ∈ o.ignore, isBook k = false)
    (h : (saveTo ok .name o Option.none (.obj attrs) st).2.2 = true)
    (h' : (saveTo ok' .handle o' sep' (saveTo ok .name o Option.none (.obj attrs) st).2.1 st').2.2 = true)
    (k : String) (hb : isBook k = false) (v : Val) (hv : Dict.get? attrs k = some v) (hbig : v.leaf.big o.limit) (hk : k ∉ o.ignore) :
    (Dict.get? st'.files [k] = Option.none →
      load (saveTo ok' .handle o' sep' (saveTo ok .name o Option.none (.obj attrs) st).2.1 st').1.files = Option.none) ∧
    ∀ w, load (saveTo ok' .handle o' sep' (saveTo ok .name o Option.none (.obj attrs) st).2.1 st').1.files = some w →
      ((∃ s c, v = .array s c) → ∃ s c, Dict.get? st'.files [k] = some (.npyArray s c) ∧ obs w [k] = some (.array s c)) ∧
      ((∃ n d i j, v = .sparse n d i j) → ∃ n d i j, Dict.get? st'.files [k] = some (.shell n) ∧
        Dict.get? st'.files [k, "data"] = some (.npy d) ∧ Dict.get? st'.files [k, "indptr"] = some (.npy i) ∧
        Dict.get? st'.files [k, "indices"] = some (.npy j) ∧ obs w [k] = some (.sparse n d i j)) := by
  obtain ⟨a, ns, ss, is, ea, b1, b2, b3, hn, hs, hlist⟩ := saved_books ok o attrs st ht hign h
  rw [ea] at h' ⊢
  obtain ⟨hi, hA, hS⟩ := (hlist k v hv).2 hbig hk
  have hother := (C246_only ok' o' sep' (.obj a) st').2
  have hroot : Dict.get? (saveTo ok' .handle o' sep' (.obj a) st').1.files [] = some (.pickled (.obj a)) := by
    unfold saveTo at h' ⊢
    exact write_ok h'
  generalize (saveTo ok' .handle o' sep' (.obj a) st').1.files = F at hother hroot
  have hobs : ∀ (a' : Attrs) (x : Val), Dict.get? a' k = some x → obs (.obj a') [k] = some x.leaf := by
    intro a' x hx
    rw [obs, hb]
    simp only [Bool.false_eq_true, if_false, hx]
    cases x <;> rw [obs]
  have hmain : ∀ w, load F = some w →
      ((∃ s c, v = .array s c) → ∃ s c, Dict.get? st'.files [k] = some (.npyArray s c) ∧ obs w [k] = some (.array s c)) ∧
      ((∃ n d i j, v = .sparse n d i j) → ∃ n d i j, Dict.get? st'.files [k] = some (.shell n) ∧
        Dict.get? st'.files [k, "data"] = some (.npy d) ∧ Dict.get? st'.files [k, "indptr"] = some (.npy i) ∧
        Dict.get? st'.files [k, "indices"] = some (.npy j) ∧ obs w [k] = some (.sparse n d i j)) := by
    intro w hw
    unfold load at hw
    rw [hroot] at hw
    obtain ⟨a', rfl, hget⟩ := loadVal_books F a w ns ss is b1 b2 b3 hn hs hw
    refine ⟨fun hv' => ?_, fun hv' => ?_⟩
    · obtain ⟨s, c, h1, h2⟩ := (hget k).2.1 hi (hA hv').2 (hA hv').1
      exact ⟨s, c, (hother [k] (by simp)).symm.trans h1, hobs a' _ h2⟩
    · obtain ⟨n, d, i, j, h1, h2, h3, h4, h5⟩ := (hget k).2.2 hi (hS hv')
      exact ⟨n, d, i, j, (hother [k] (by simp)).symm.trans h1, (hother _ (by simp)).symm.trans h2,
        (hother _ (by simp)).symm.trans h3, (hother _ (by simp)).symm.trans h4, hobs a' _ h5⟩
  refine ⟨fun hno => ?_, hmain⟩
  cases hw : load F with
  | none => rfl
  | some w =>
    obtain ⟨m1, m2⟩ := hmain w hw
    cases v with
    | array s c =>
      obtain ⟨_, _, h1, _⟩ := m1 ⟨s, c, rfl⟩
      rw [hno] at h1
      exact (nomatch h1)
    | sparse n d i j =>
      obtain ⟨_, _, _, _, h1, _⟩ := m2 ⟨n, d, i, j, rfl⟩
      rw [hno] at h1
      exact (nomatch h1)
    | _ => exact hbig.elim

/-- C246: an attribute that was left out when the object was saved by name is `None` also when the object was saved
to an open file afterwards, although that file stores it. -/
theorem C246_lost (ok ok' : Nat → Bool) (o o' : Opts) (sep' : Option (List String)) (attrs : Attrs) (st st' : St)
    (ht : Tidy (.obj attrs)) (hign : ∀ k ∈ o.ignore, isBook k = false)
    (h : (saveTo ok .name o Option.none (.obj attrs) st).2.2 = true)
    (h' : (saveTo ok' .handle o' sep' (saveTo ok .name o Option.none (.obj attrs) st).2.1 st').2.2 = true)
    (k : String) (v : Val) (hv : Dict.get? attrs k = some v) (hk : k ∈ o.ignore) (w : Val)
    (hw : load (saveTo ok' .handle o' sep' (saveTo ok .name o Option.none (.obj attrs) st).2.1 st').1.files = some w) :
    obs w [k] = some .none := by
  obtain ⟨a, ns, ss, is, ea, b1, b2, b3, hn, hs, hlist⟩ := saved_books ok o attrs st ht hign h
  rw [ea] at h' hw
  have hi := (hlist k v hv).1 hk
  have hroot : Dict.get? (saveTo ok' .handle o' sep' (.obj a) st').1.files [] = some (.pickled (.obj a)) := by
    unfold saveTo at h' ⊢
    exact write_ok h'
  unfold load at hw
  rw [hroot] at hw
  obtain ⟨a', rfl, hget⟩ := loadVal_books _ a w ns ss is b1 b2 b3 hn hs hw
  rw [obs, hign k hk]
  simp only [Bool.false_eq_true, if_false, (hget k).1 hi]
  rw [obs]
  rfl

/-- An object with a large array, a small one and a number. -/
def modelAttrs : Attrs := [("big", .array 9 1), ("small", .array 2 3), ("t", .plain 4)]

example : NeverSaved modelAttrs ∧ (saveTo (fun _ => true) .handle ⟨5, ["t"]⟩ Option.none (.obj modelAttrs) ⟨[], 0⟩).2.2 = true ∧
    Dict.keys (saveTo (fun _ => true) .handle ⟨5, ["t"]⟩ Option.none (.obj modelAttrs) ⟨[], 0⟩).1.files = [[]] := by
  refine ⟨?_, by decide, by decide⟩
  intro b hb hm
  simp only [modelAttrs, Dict.keys, List.map_cons, List.map_nil, List.mem_cons, List.not_mem_nil, or_false] at hm
  rcases hm with rfl | rfl | rfl <;> exact absurd hb (by decide)

/-- The hypotheses of `C246_stale` and `C246_lost` hold for it. -/
example : Tidy (.obj modelAttrs) ∧ (saveTo (fun _ => true) .name ⟨5, ["t"]⟩ Option.none (.obj modelAttrs) ⟨[], 0⟩).2.2 = true ∧
    (saveTo (fun _ => true) .handle ⟨5, []⟩ Option.none
      (saveTo (fun _ => true) .name ⟨5, ["t"]⟩ Option.none (.obj modelAttrs) ⟨[], 0⟩).2.1 ⟨[], 0⟩).2.2 = true ∧
    (Val.array 9 1).leaf.big 5 ∧ Dict.get? modelAttrs "big" = some (.array 9 1) := by
  refine ⟨?_, by decide, by decide, by simp [Val.leaf, Leaf.big], rfl⟩
  simp [modelAttrs, Tidy, TidyL, Dict.keys, isBook]

/-- C246 is false: an object that was saved by name and then saved to an open file cannot be loaded from it; and if
the open file has the name used before, then the array loaded is the one of the first time. -/
theorem C246_false :
    let first := saveTo (fun _ => true) .name ⟨5, []⟩ Option.none (.obj modelAttrs) ⟨[], 0⟩
    let new := saveTo (fun _ => true) .handle ⟨5, []⟩ Option.none first.2.1 ⟨[], 0⟩
    let changed := updAt (fun a => Dict.set a "big" (.array 9 2)) [] first.2.1
    let again := saveTo (fun _ => true) .handle ⟨5, []⟩ Option.none changed first.1
    first.2.2 = true ∧ new.2.2 = true ∧ (load new.1.files).isNone = true ∧
      again.2.2 = true ∧ obs changed ["big"] = some (.array 9 2) ∧
      (load again.1.files).bind (fun w => obs w ["big"]) = some (.array 9 1) := by decide

end Verif.Setup.Save
