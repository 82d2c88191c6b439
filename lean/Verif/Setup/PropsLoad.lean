import Verif.Setup.PropsSave

/-!
# C83: loading gives back what was saved
-/

namespace Verif.Setup.Save

open Verif.Py

/-! ## Specification -/

/-- What is to be found in the loaded object: what was in the saved one, except that an attribute that was not
to be stored is `None`. -/
def obsLoaded (ign : List String) : Val → List String → Option Leaf
  | v, [] => some v.leaf
  | .obj attrs, k :: p => if isBook k then Option.none else
    match Dict.get? attrs k with
    | some v => if k ∈ ign then obs .none p else obsLoaded ign v p
    | Option.none => Option.none
  | _, _ :: _ => Option.none

mutual
/-- Every name once in a dictionary, the bookkeeping names only for bookkeeping. -/
def Tidy : Val → Prop
  | .obj attrs => (Dict.keys attrs).Nodup ∧ TidyL attrs
  | _ => True
def TidyL : Attrs → Prop
  | [] => True
  | (k, v) :: rest => (isBook k = true → ∃ l, v = .names l) ∧ Tidy v ∧ TidyL rest
end

/-- An array or a sparse matrix. -/
def Val.isArray : Val → Bool
  | .array _ _ => true
  | .sparse _ _ _ _ => true
  | _ => false

/-- The attributes that the caller wants stored separately are arrays or sparse matrices (or not to be stored
at all), and not the bookkeeping attributes. -/
def SepOk (o : Opts) (sep : Option (List String)) (v : Val) : Prop :=
  ∀ l, sep = some l → ∀ attrs, v = .obj attrs → ∀ k ∈ l, isBook k = false ∧
    ∀ w, Dict.get? attrs k = some w → k ∉ o.ignore → w.isArray = true

/-! ## What is written where -/

/-- Only files of the attributes in `K` of the object at `path` differ. -/
def Frame (path : List String) (K : String → Prop) (st st' : St) : Prop :=
  ∀ p, (∀ k r, p = path ++ k :: r → ¬ K k) → Dict.get? st'.files p = Dict.get? st.files p

theorem Frame.refl (path : List String) (K : String → Prop) (st : St) : Frame path K st st := fun _ _ => rfl

theorem Frame.trans {path : List String} {K : String → Prop} {a b c : St} (h : Frame path K a b)
    (h' : Frame path K b c) : Frame path K a c := fun p hp => (h' p hp).trans (h p hp)

theorem Frame.mono {path : List String} {K K' : String → Prop} {a b : St} (h : Frame path K a b)
    (hK : ∀ k, K k → K' k) : Frame path K' a b := fun p hp => h p (fun k r he hk => hp k r he (hK k hk))

theorem Frame.up {path : List String} {k : String} {K : String → Prop} {a b : St} (h : Frame (path ++ [k]) K a b) :
    Frame path (· = k) a b := fun p hp => h p (fun k' r he _ => hp k (k' :: r) (by simp [he]) rfl)

theorem frame_write (ok : Nat → Bool) (path : List String) (k : String) (r : List String) (c : Content) (st : St) :
    Frame path (· = k) st (write ok (path ++ k :: r) c st).1 := by
  intro p hp
  unfold write
  split
  · simp only
    rw [Dict.get?_set, if_neg]
    rintro rfl
    exact hp k r rfl rfl
  · rfl

theorem write_ok {ok : Nat → Bool} {key : List String} {c : Content} {st : St}
    (h : (write ok key c st).2 = true) : Dict.get? (write ok key c st).1.files key = some c := by
  unfold write at h ⊢
  split at h
  · rename_i hk
    rw [if_pos hk]
    simp only
    rw [Dict.get?_set, if_pos rfl]
  · exact (nomatch h)

theorem write_get_other {ok : Nat → Bool} {key key' : List String} {c : Content} {st : St} (hne : key ≠ key') :
    Dict.get? (write ok key c st).1.files key' = Dict.get? st.files key' := by
  unfold write
  split
  · simp only
    rw [Dict.get?_set, if_neg hne]
  · rfl

/-- The files of one attribute stored separately. -/
def Stored (F : Dict (List String) Content) (path : List String) (k : String) : Val → Prop
  | .array s c => Dict.get? F (path ++ [k]) = some (.npyArray s c)
  | .sparse n d i j => Dict.get? F (path ++ [k]) = some (.shell n) ∧ Dict.get? F (path ++ [k, "data"]) = some (.npy d) ∧
    Dict.get? F (path ++ [k, "indptr"]) = some (.npy i) ∧ Dict.get? F (path ++ [k, "indices"]) = some (.npy j)
  | _ => True

/-- Arrays to be stored. -/
def isNp (ign : List String) (p : String × Val) : Bool :=
  match p.2 with
  | .array _ _ => decide (p.1 ∉ ign)
  | _ => false

/-- Sparse matrices to be stored. -/
def isSp (ign : List String) (p : String × Val) : Bool :=
  match p.2 with
  | .sparse _ _ _ _ => decide (p.1 ∉ ign)
  | _ => false

/-- The rest. -/
def isIg (ign : List String) (p : String × Val) : Bool := !isNp ign p && !isSp ign p

/-- The lists after one more attribute. -/
def grow (ign : List String) (l : Lists) (p : String × Val) : Lists :=
  (if isNp ign p then l.1 ++ [p.1] else l.1, if isSp ign p then l.2.1 ++ [p.1] else l.2.1,
    if isIg ign p then l.2.2 ++ [p.1] else l.2.2)

theorem writeAside_some {ok : Nat → Bool} {o : Opts} {path : List String} {st : St} {l : Lists} {p : String × Val}
    {st' : St} {l' : Lists} (h : writeAside ok o path (st, some l) p = (st', some l')) :
    l' = grow o.ignore l p ∧ Frame path (· = p.1) st st' ∧ (p.1 ∉ o.ignore → Stored st'.files path p.1 p.2) := by
  obtain ⟨ns, ss, is⟩ := l
  obtain ⟨k, v⟩ := p
  have hig : ∀ l', (st, some (ns, ss, is ++ [k])) = (st', some l') → (isNp o.ignore (k, v) = false) →
      (isSp o.ignore (k, v) = false) → l' = grow o.ignore (ns, ss, is) (k, v) ∧ Frame path (· = k) st st' := by
    intro l' he h1 h2
    simp only [Prod.mk.injEq, Option.some.injEq] at he
    obtain ⟨rfl, rfl⟩ := he
    refine ⟨?_, Frame.refl _ _ _⟩
    simp [grow, h1, h2, isIg]
  cases v with
  | array s c =>
    by_cases hk : k ∈ o.ignore
    · simp only [writeAside, hk, decide_true] at h
      obtain ⟨h1, h2⟩ := hig l' h (by simp [isNp, hk]) (by simp [isSp])
      exact ⟨h1, h2, fun hn => absurd hk hn⟩
    · simp only [writeAside, hk, decide_false] at h
      have hw := @write_ok ok (path ++ [k]) (.npyArray s c) st
      have hf := frame_write ok path k [] (.npyArray s c) st
      generalize write ok (path ++ [k]) (.npyArray s c) st = w at h hw hf
      obtain ⟨st1, b⟩ := w
      cases b with
      | false => simp at h
      | true =>
        simp only [Prod.mk.injEq, Option.some.injEq] at h
        obtain ⟨rfl, rfl⟩ := h
        refine ⟨by simp [grow, isNp, isSp, isIg, hk], hf, fun _ => ?_⟩
        exact hw rfl
  | sparse n d i j =>
    by_cases hk : k ∈ o.ignore
    · simp only [writeAside, hk, decide_true] at h
      obtain ⟨h1, h2⟩ := hig l' h (by simp [isNp]) (by simp [isSp, hk])
      exact ⟨h1, h2, fun hn => absurd hk hn⟩
    · simp only [writeAside, hk, decide_false] at h
      have w1 := @write_ok ok (path ++ [k, "data"]) (.npy d) st
      have f1 := frame_write ok path k ["data"] (.npy d) st
      generalize write ok (path ++ [k, "data"]) (.npy d) st = x1 at h w1 f1
      obtain ⟨st1, b⟩ := x1
      cases b with
      | false => simp at h
      | true =>
      simp only at h
      have w2 := @write_ok ok (path ++ [k, "indptr"]) (.npy i) st1
      have f2 := frame_write ok path k ["indptr"] (.npy i) st1
      have g2 := @write_get_other ok (path ++ [k, "indptr"]) (path ++ [k, "data"]) (.npy i) st1 (by simp)
      generalize write ok (path ++ [k, "indptr"]) (.npy i) st1 = x2 at h w2 f2 g2
      obtain ⟨st2, b⟩ := x2
      cases b with
      | false => simp at h
      | true =>
      simp only at h
      have w3 := @write_ok ok (path ++ [k, "indices"]) (.npy j) st2
      have f3 := frame_write ok path k ["indices"] (.npy j) st2
      have g3 := @write_get_other ok (path ++ [k, "indices"]) (path ++ [k, "data"]) (.npy j) st2 (by simp)
      have g3' := @write_get_other ok (path ++ [k, "indices"]) (path ++ [k, "indptr"]) (.npy j) st2 (by simp)
      generalize write ok (path ++ [k, "indices"]) (.npy j) st2 = x3 at h w3 f3 g3 g3'
      obtain ⟨st3, b⟩ := x3
      cases b with
      | false => simp at h
      | true =>
      simp only at h
      have w4 := @write_ok ok (path ++ [k]) (.shell n) st3
      have f4 := frame_write ok path k [] (.shell n) st3
      have g4 := @write_get_other ok (path ++ [k]) (path ++ [k, "data"]) (.shell n) st3 (by simp)
      have g4' := @write_get_other ok (path ++ [k]) (path ++ [k, "indptr"]) (.shell n) st3 (by simp)
      have g4'' := @write_get_other ok (path ++ [k]) (path ++ [k, "indices"]) (.shell n) st3 (by simp)
      generalize write ok (path ++ [k]) (.shell n) st3 = x4 at h w4 f4 g4 g4' g4''
      obtain ⟨st4, b⟩ := x4
      cases b with
      | false => simp at h
      | true =>
      simp only [Prod.mk.injEq, Option.some.injEq] at h
      obtain ⟨rfl, rfl⟩ := h
      refine ⟨by simp [grow, isNp, isSp, isIg, hk], f1.trans (f2.trans (f3.trans f4)), fun _ => ?_⟩
      refine ⟨w4 rfl, ?_, ?_, ?_⟩
      · rw [g4, g3, g2]; exact w1 rfl
      · rw [g4', g3']; exact w2 rfl
      · rw [g4'']; exact w3 rfl
  | _ =>
    obtain ⟨h1, h2⟩ := hig l' (by simpa [writeAside] using h) (by simp [isNp]) (by simp [isSp])
    exact ⟨h1, h2, fun _ => trivial⟩

theorem stored_congr {F F' : Dict (List String) Content} {path : List String} {k : String} {v : Val}
    (h : ∀ r, Dict.get? F' (path ++ k :: r) = Dict.get? F (path ++ k :: r)) (hs : Stored F path k v) :
    Stored F' path k v := by
  cases v with
  | array s c => exact (h []).trans hs
  | sparse n d i j =>
    unfold Stored at hs ⊢
    obtain ⟨h1, h2, h3, h4⟩ := hs
    exact ⟨(h []).trans h1, (h ["data"]).trans h2, (h ["indptr"]).trans h3, (h ["indices"]).trans h4⟩
  | _ => trivial

theorem writeAside_none (ok : Nat → Bool) (o : Opts) (path : List String) (l : List (String × Val)) (st : St) :
    l.foldl (writeAside ok o path) (st, Option.none) = (st, Option.none) := by
  induction l with
  | nil => rfl
  | cons p l ih => rw [List.foldl_cons]; exact ih

theorem writeAsides_some {ok : Nat → Bool} {o : Opts} {path : List String} (l : List (String × Val))
    (hnd : (Dict.keys l).Nodup) : ∀ {st : St} {ls : Lists} {st' : St} {ls' : Lists},
    l.foldl (writeAside ok o path) (st, some ls) = (st', some ls') →
    ls' = l.foldl (grow o.ignore) ls ∧ Frame path (· ∈ Dict.keys l) st st' ∧
      ∀ p ∈ l, p.1 ∉ o.ignore → Stored st'.files path p.1 p.2 := by
  induction l with
  | nil =>
    intro st ls st' ls' h
    simp only [List.foldl_nil, Prod.mk.injEq, Option.some.injEq] at h
    obtain ⟨rfl, rfl⟩ := h
    exact ⟨rfl, Frame.refl _ _ _, by simp⟩
  | cons p l ih =>
    intro st ls st' ls' h
    simp only [Dict.keys_cons, List.nodup_cons] at hnd
    rw [List.foldl_cons] at h
    generalize hw : writeAside ok o path (st, some ls) p = w at h
    obtain ⟨st1, r⟩ := w
    cases r with
    | none => rw [writeAside_none] at h; simp at h
    | some ls1 =>
      obtain ⟨h1, h2, h3⟩ := writeAside_some hw
      obtain ⟨i1, i2, i3⟩ := ih hnd.2 h
      refine ⟨by rw [i1, h1]; rfl, ?_, ?_⟩
      · refine (h2.mono ?_).trans (i2.mono ?_)
        · rintro k rfl; simp
        · intro k hk; simp [hk]
      · intro p' hp' hig
        rcases List.mem_cons.1 hp' with rfl | hp'
        · refine stored_congr (fun r => i2 _ ?_) (h3 hig)
          intro k r' he hk
          simp only [List.append_cancel_left_eq, List.cons.injEq] at he
          rw [← he.1] at hk
          exact hnd.1 hk
        · exact i3 p' hp' hig

theorem grow_mem (ign : List String) (l : List (String × Val)) (ls : Lists) (k : String) :
    (k ∈ (l.foldl (grow ign) ls).1 ↔ k ∈ ls.1 ∨ ∃ v, (k, v) ∈ l ∧ isNp ign (k, v) = true) ∧
    (k ∈ (l.foldl (grow ign) ls).2.1 ↔ k ∈ ls.2.1 ∨ ∃ v, (k, v) ∈ l ∧ isSp ign (k, v) = true) ∧
    (k ∈ (l.foldl (grow ign) ls).2.2 ↔ k ∈ ls.2.2 ∨ ∃ v, (k, v) ∈ l ∧ isIg ign (k, v) = true) := by
  induction l generalizing ls with
  | nil => simp
  | cons p l ih =>
    obtain ⟨a, v⟩ := p
    have key : ∀ (b : String × Val → Bool) (x : List String),
        (k ∈ (if b (a, v) then x ++ [a] else x) ∨ ∃ w, (k, w) ∈ l ∧ b (k, w) = true) ↔
        (k ∈ x ∨ ∃ w, (k, w) ∈ (a, v) :: l ∧ b (k, w) = true) := by
      intro b x
      constructor
      · rintro (h | ⟨w, h1, h2⟩)
        · by_cases hb : b (a, v) = true
          · rw [if_pos hb] at h
            rcases List.mem_append.1 h with h | h
            · exact Or.inl h
            · have : k = a := by simpa using h
              subst this
              exact Or.inr ⟨v, by simp, hb⟩
          · rw [if_neg hb] at h; exact Or.inl h
        · exact Or.inr ⟨w, List.mem_cons_of_mem _ h1, h2⟩
      · rintro (h | ⟨w, h1, h2⟩)
        · left; split
          · exact List.mem_append_left _ h
          · exact h
        · rcases List.mem_cons.1 h1 with he | h1
          · simp only [Prod.mk.injEq] at he
            obtain ⟨rfl, rfl⟩ := he
            left; rw [if_pos h2]; simp
          · exact Or.inr ⟨w, h1, h2⟩
    rw [List.foldl_cons]
    obtain ⟨i1, i2, i3⟩ := ih (grow ign ls (a, v))
    refine ⟨i1.trans ?_, i2.trans ?_, i3.trans ?_⟩
    · exact key (isNp ign) ls.1
    · exact key (isSp ign) ls.2.1
    · exact key (isIg ign) ls.2.2

mutual
theorem saveVal_frame (ok : Nat → Bool) (o : Opts) : ∀ (v : Val) (path : List String) (sep : Option (List String))
    (st : St) (rs : Restores), (saveVal ok o path sep v st).res = some rs →
    Frame path (fun _ => True) st (saveVal ok o path sep v st).st
  | .obj attrs, path, sep, st, rs, h => by
    rw [saveVal] at h ⊢
    generalize hn : sep.getD (autoSep o.limit attrs) ++ o.ignore = nms at h ⊢
    have hattrs := saveAttrs_frame ok o attrs path nms st
    cases hr : (saveAttrs ok o path nms attrs st).res with
    | none => rw [hr] at h; exact (nomatch h)
    | some rs1 =>
      rw [hr] at h
      simp only at h ⊢
      have hfr := hattrs rs1 hr
      generalize hw : (setAside nms attrs).foldl (writeAside ok o path)
        ((saveAttrs ok o path nms attrs st).st, some ([], [], [])) = w at h ⊢
      obtain ⟨st', lists⟩ := w
      cases lists with
      | none => exact (nomatch h)
      | some lists =>
        obtain ⟨_, h2, _⟩ := writeAsides_some _ (setAside_WF nms attrs) hw
        exact (hfr.mono (fun _ _ => trivial)).trans (h2.mono (fun _ _ => trivial))
  | .array s c, path, sep, st, rs, h => by
    rw [saveVal]
    · exact Frame.refl _ _ _
    all_goals simp
  | .sparse n d i j, path, sep, st, rs, h => by
    rw [saveVal]
    · exact Frame.refl _ _ _
    all_goals simp
  | .plain c, path, sep, st, rs, h => by
    rw [saveVal]
    · exact Frame.refl _ _ _
    all_goals simp
  | .names l, path, sep, st, rs, h => by
    rw [saveVal]
    · exact Frame.refl _ _ _
    all_goals simp
  | .none, path, sep, st, rs, h => by
    rw [saveVal]
    · exact Frame.refl _ _ _
    all_goals simp
theorem saveAttrs_frame (ok : Nat → Bool) (o : Opts) : ∀ (attrs : Attrs) (path gone : List String) (st : St)
    (rs : Restores), (saveAttrs ok o path gone attrs st).res = some rs →
    Frame path (fun k => k ∈ Dict.keys attrs ∧ k ∉ gone) st (saveAttrs ok o path gone attrs st).st
  | [], path, gone, st, rs, h => by
    rw [saveAttrs]
    exact Frame.refl _ _ _
  | (k, v) :: rest, path, gone, st, rs, h => by
    rw [saveAttrs] at h ⊢
    by_cases hk : k ∈ gone
    · rw [if_pos hk] at h ⊢
      exact (saveAttrs_frame ok o rest path gone st rs h).mono (fun k' h' => ⟨by simp [h'.1], h'.2⟩)
    · rw [if_neg hk] at h ⊢
      simp only at h ⊢
      have hv := saveVal_frame ok o v (path ++ [k]) Option.none st
      cases hr : (saveVal ok o (path ++ [k]) Option.none v st).res with
      | none => rw [hr] at h; exact (nomatch h)
      | some rs1 =>
        rw [hr] at h
        simp only at h ⊢
        obtain ⟨rs2, h2, rfl⟩ := Option.map_eq_some_iff.1 h
        have h3 := saveAttrs_frame ok o rest path gone _ rs2 h2
        refine ((hv rs1 hr).up.mono ?_).trans (h3.mono (fun k' h' => ⟨by simp [h'.1], h'.2⟩))
        rintro k' rfl
        exact ⟨by simp, hk⟩
end

/-! ## Loading -/

theorem get?_loadAttrs (F : Dict (List String) Content) (path recs : List String) (k : String) :
    ∀ (a a' : Attrs), loadAttrs F path recs a = some a' →
    Dict.get? a' k = (Dict.get? a k).bind (fun v => if k ∈ recs then loadVal F (path ++ [k]) v else some v)
  | [], a', h => by
    rw [loadAttrs] at h
    obtain rfl := Option.some.inj h
    rfl
  | (k', v) :: rest, a', h => by
    rw [loadAttrs] at h
    simp only [Option.bind_eq_bind, Option.bind_eq_some_iff] at h
    obtain ⟨v', h1, rest', h2, h3⟩ := h
    obtain rfl := Option.some.inj h3
    rw [Dict.get?_cons, Dict.get?_cons]
    by_cases hk : k' = k
    · subst hk
      simp only [if_true, Option.bind_some]
      exact h1.symm
    · simp only [hk, if_false]
      exact get?_loadAttrs F path recs k rest rest' h2

theorem loadAttrs_some (F : Dict (List String) Content) (path recs : List String) :
    ∀ (a : Attrs), (∀ p ∈ a, p.1 ∈ recs → (loadVal F (path ++ [p.1]) p.2).isSome) →
    ∃ a', loadAttrs F path recs a = some a'
  | [], _ => ⟨[], by rw [loadAttrs]⟩
  | (k, v) :: rest, h => by
    obtain ⟨a', ha'⟩ := loadAttrs_some F path recs rest (fun p hp => h p (List.mem_cons_of_mem _ hp))
    have h1 := h (k, v) (by simp)
    rw [loadAttrs]
    by_cases hk : k ∈ recs
    · obtain ⟨v', hv'⟩ := Option.isSome_iff_exists.1 (h1 hk)
      exact ⟨(k, v') :: a', by simp [hk, hv', ha']⟩
    · exact ⟨(k, v) :: a', by simp [hk, ha']⟩

theorem loadNumpys (F : Dict (List String) Content) (path : List String) (val : String → Nat × Nat) :
    ∀ (ns : List String) (a : Attrs),
    (∀ k ∈ ns, Dict.get? F (path ++ [k]) = some (.npyArray (val k).1 (val k).2)) →
    ∃ a', ns.foldlM (loadNumpy F path) a = some a' ∧
      ∀ k, Dict.get? a' k = if k ∈ ns then some (.array (val k).1 (val k).2) else Dict.get? a k := by
  intro ns
  induction ns with
  | nil => intro a _; exact ⟨a, rfl, by simp⟩
  | cons n ns ih =>
    intro a h
    obtain ⟨a', h1, h2⟩ := ih (Dict.set a n (.array (val n).1 (val n).2))
      (fun k hk => h k (List.mem_cons_of_mem _ hk))
    refine ⟨a', ?_, ?_⟩
    · have : loadNumpy F path a n = some (Dict.set a n (.array (val n).1 (val n).2)) := by
        unfold loadNumpy
        rw [h n (by simp)]
      rw [List.foldlM_cons, this]
      exact h1
    · intro k
      rw [h2 k, Dict.get?_set]
      by_cases hn : n = k
      · subst hn
        simp
      · simp [hn, Ne.symm hn]

theorem loadScipys (F : Dict (List String) Content) (path : List String) (val : String → Nat × Nat × Nat × Nat) :
    ∀ (ns : List String) (a : Attrs),
    (∀ k ∈ ns, Stored F path k (.sparse (val k).1 (val k).2.1 (val k).2.2.1 (val k).2.2.2)) →
    ∃ a', ns.foldlM (loadScipy F path) a = some a' ∧
      ∀ k, Dict.get? a' k = if k ∈ ns then some (.sparse (val k).1 (val k).2.1 (val k).2.2.1 (val k).2.2.2)
        else Dict.get? a k := by
  intro ns
  induction ns with
  | nil => intro a _; exact ⟨a, rfl, by simp⟩
  | cons n ns ih =>
    intro a h
    obtain ⟨a', h1, h2⟩ := ih (Dict.set a n (.sparse (val n).1 (val n).2.1 (val n).2.2.1 (val n).2.2.2))
      (fun k hk => h k (List.mem_cons_of_mem _ hk))
    refine ⟨a', ?_, ?_⟩
    · have : loadScipy F path a n = some (Dict.set a n (.sparse (val n).1 (val n).2.1 (val n).2.2.1 (val n).2.2.2)) := by
        obtain ⟨s1, s2, s3, s4⟩ := h n (by simp)
        unfold loadScipy
        rw [s1, s2, s3, s4]
      rw [List.foldlM_cons, this]
      exact h1
    · intro k
      rw [h2 k, Dict.get?_set]
      by_cases hn : n = k
      · subst hn
        simp
      · simp [hn, Ne.symm hn]

theorem setNones (is : List String) (a : Attrs) (k : String) :
    Dict.get? (is.foldl (fun a k => Dict.set a k Val.none) a) k = if k ∈ is then some .none else Dict.get? a k := by
  induction is generalizing a with
  | nil => simp
  | cons n is ih =>
    rw [List.foldl_cons, ih, Dict.get?_set]
    by_cases hn : n = k
    · subst hn; simp
    · simp [hn, Ne.symm hn]

theorem obsLoaded_of_not_obj (ign : List String) (v : Val) (h : ∀ a, v ≠ .obj a) (q : List String) :
    obsLoaded ign v q = obs v q := by
  cases v with
  | obj a => exact absurd rfl (h a)
  | _ => cases q <;> simp [obsLoaded, obs]

theorem mem_TidyL {attrs : Attrs} (h : TidyL attrs) {k : String} {v : Val} (hm : (k, v) ∈ attrs) :
    (isBook k = true → ∃ l, v = .names l) ∧ Tidy v := by
  induction attrs with
  | nil => simp at hm
  | cons p rest ih =>
    obtain ⟨k', v'⟩ := p
    rw [TidyL] at h
    rcases List.mem_cons.1 hm with he | hm
    · simp only [Prod.mk.injEq] at he
      obtain ⟨rfl, rfl⟩ := he
      exact ⟨h.1, h.2.1⟩
    · exact ih h.2.2 hm

theorem autoSep_array {limit : Nat} {attrs : Attrs} (hnd : (Dict.keys attrs).Nodup) {k : String}
    (hk : k ∈ autoSep limit attrs) {w : Val} (hw : Dict.get? attrs k = some w) : w.isArray = true := by
  unfold autoSep at hk
  obtain ⟨⟨k', v⟩, hm, he⟩ := List.mem_filterMap.1 hk
  have hkk : k' = k ∧ v.isArray = true := by
    cases v <;> simp only at he
    · split at he
      · exact ⟨Option.some.inj he, rfl⟩
      · exact (nomatch he)
    · split at he
      · exact ⟨Option.some.inj he, rfl⟩
      · exact (nomatch he)
    all_goals exact (nomatch he)
  obtain ⟨rfl, hv⟩ := hkk
  rw [Dict.get?_of_mem hnd hm] at hw
  obtain rfl := Option.some.inj hw
  exact hv

theorem mem_autoSep {limit : Nat} {attrs : Attrs} {k : String} (hk : k ∈ autoSep limit attrs) :
    ∃ v, (k, v) ∈ attrs ∧ v.isArray = true := by
  unfold autoSep at hk
  obtain ⟨⟨k', v⟩, hm, he⟩ := List.mem_filterMap.1 hk
  cases v <;> simp only at he
  · split at he
    · obtain rfl := Option.some.inj he
      exact ⟨_, hm, rfl⟩
    · exact (nomatch he)
  · split at he
    · obtain rfl := Option.some.inj he
      exact ⟨_, hm, rfl⟩
    · exact (nomatch he)
  all_goals exact (nomatch he)

theorem mem_objNames {gone : List String} {attrs : Attrs} {k : String} :
    k ∈ objNames gone attrs ↔ k ∉ gone ∧ ∃ a, (k, Val.obj a) ∈ attrs := by
  unfold objNames
  rw [List.mem_filterMap]
  constructor
  · rintro ⟨⟨k', v⟩, hm, he⟩
    simp only at he
    split at he
    · exact (nomatch he)
    · rename_i hg
      cases v with
      | obj a =>
        obtain rfl := Option.some.inj he
        exact ⟨hg, a, hm⟩
      | _ => exact (nomatch he)
  · rintro ⟨hg, a, hm⟩
    exact ⟨(k, .obj a), hm, by simp [hg]⟩

/-- The value of an array that was put aside. -/
def npVal (asides : Dict String Val) (k : String) : Nat × Nat :=
  match Dict.get? asides k with
  | some (.array s c) => (s, c)
  | _ => (0, 0)

/-- The value of a sparse matrix that was put aside. -/
def spVal (asides : Dict String Val) (k : String) : Nat × Nat × Nat × Nat :=
  match Dict.get? asides k with
  | some (.sparse n d i j) => (n, d, i, j)
  | _ => (0, 0, 0, 0)

/-- Loading the attributes that were put aside, given what the rest loads to. -/
theorem loadOwn (F : Dict (List String) Content) (path ign recs : List String) (asides : Dict String Val)
    (hwf : Dict.WF asides) (hbook : ∀ k ∈ Dict.keys asides, isBook k = false) (now a1 : Attrs) (ls : Lists)
    (hls : ls = asides.foldl (grow ign) ([], [], []))
    (hst : ∀ p ∈ asides, p.1 ∉ ign → Stored F path p.1 p.2)
    (h1 : loadAttrs F path recs (addBook now ls recs) = some a1) (hrecs : ∀ k ∈ recs, isBook k = false) :
    ∃ a4, loadVal F path (.obj (addBook now ls recs)) = some (.obj a4) ∧
      ∀ k, Dict.get? a4 k = match Dict.get? asides k with
        | some w => some (if w.isArray = true ∧ k ∉ ign then w else .none)
        | Option.none => Dict.get? a1 k := by
  have hmem := fun k => grow_mem ign asides ([], [], []) k
  rw [← hls] at hmem
  have hb0 : book (addBook now ls recs) "__recursive_saveloads" = recs := by
    simp [book, addBook, Dict.get?_set]
  have hb1 : ∀ b, isBook b = true → Dict.get? a1 b = Dict.get? (addBook now ls recs) b := by
    intro b hb
    rw [get?_loadAttrs F path recs b _ _ h1]
    have : b ∉ recs := fun hm => by rw [hrecs b hm] at hb; exact (nomatch hb)
    simp [this]
  have hnb : ∀ (b : String → Bool) (l : List String), (∀ k, k ∈ l → ∃ v, (k, v) ∈ asides) →
      ∀ k ∈ l, isBook k = false := by
    intro _ l hl k hk
    obtain ⟨v, hv⟩ := hl k hk
    exact hbook k (List.mem_map.2 ⟨_, hv, rfl⟩)
  have m1 : ∀ k, k ∈ ls.1 ↔ ∃ v, (k, v) ∈ asides ∧ isNp ign (k, v) = true := by
    intro k; simpa using (hmem k).1
  have m2 : ∀ k, k ∈ ls.2.1 ↔ ∃ v, (k, v) ∈ asides ∧ isSp ign (k, v) = true := by
    intro k; simpa using (hmem k).2.1
  have m3 : ∀ k, k ∈ ls.2.2 ↔ ∃ v, (k, v) ∈ asides ∧ isIg ign (k, v) = true := by
    intro k; simpa using (hmem k).2.2
  have n1 : ∀ k ∈ ls.1, isBook k = false := hnb (fun _ => true) _ (fun k hk => by
    obtain ⟨v, hv, _⟩ := (m1 k).1 hk; exact ⟨v, hv⟩)
  have n2 : ∀ k ∈ ls.2.1, isBook k = false := hnb (fun _ => true) _ (fun k hk => by
    obtain ⟨v, hv, _⟩ := (m2 k).1 hk; exact ⟨v, hv⟩)
  obtain ⟨a2, e2, g2⟩ := loadNumpys F path (npVal asides) ls.1 a1 (by
    intro k hk
    obtain ⟨v, hv, hn⟩ := (m1 k).1 hk
    cases v with
    | array s c =>
      have hi : k ∉ ign := by simpa [isNp] using hn
      have := hst _ hv hi
      simp only [npVal, Dict.get?_of_mem hwf hv]
      exact this
    | _ => simp [isNp] at hn)
  obtain ⟨a3, e3, g3⟩ := loadScipys F path (spVal asides) ls.2.1 a2 (by
    intro k hk
    obtain ⟨v, hv, hn⟩ := (m2 k).1 hk
    cases v with
    | sparse n d i j =>
      have hi : k ∉ ign := by simpa [isSp] using hn
      have := hst _ hv hi
      simp only [spVal, Dict.get?_of_mem hwf hv]
      exact this
    | _ => simp [isSp] at hn)
  have hb1' : book a1 "__numpys" = ls.1 := by
    unfold book
    rw [hb1 _ (by decide)]
    simp [addBook, Dict.get?_set]
  have hb2' : book a2 "__scipys" = ls.2.1 := by
    unfold book
    rw [g2, if_neg (fun hm => by have := n1 _ hm; revert this; decide), hb1 _ (by decide)]
    simp [addBook, Dict.get?_set]
  have hb3' : book a3 "__ignoreds" = ls.2.2 := by
    unfold book
    rw [g3, if_neg (fun hm => by have := n2 _ hm; revert this; decide), g2,
      if_neg (fun hm => by have := n1 _ hm; revert this; decide), hb1 _ (by decide)]
    simp [addBook, Dict.get?_set]
  refine ⟨ls.2.2.foldl (fun a k => Dict.set a k Val.none) a3, ?_, ?_⟩
  · rw [loadVal]
    simp only [Option.bind_eq_bind, hb0, h1, Option.bind_some, hb1', e2, hb2', e3, hb3']
    rfl
  · intro k
    rw [setNones, g3, g2]
    cases hk : Dict.get? asides k with
    | none =>
      have hno : ∀ v, (k, v) ∉ asides := fun v hv => by rw [Dict.get?_of_mem hwf hv] at hk; exact (nomatch hk)
      rw [if_neg (fun hm => by obtain ⟨v, hv, _⟩ := (m3 k).1 hm; exact hno v hv),
        if_neg (fun hm => by obtain ⟨v, hv, _⟩ := (m2 k).1 hm; exact hno v hv),
        if_neg (fun hm => by obtain ⟨v, hv, _⟩ := (m1 k).1 hm; exact hno v hv)]
    | some w =>
      have hm := Dict.mem_of_get? hk
      have huniq : ∀ v, (k, v) ∈ asides → v = w := fun v hv => by
        rw [Dict.get?_of_mem hwf hv] at hk; exact Option.some.inj hk
      have q1 : k ∈ ls.1 ↔ isNp ign (k, w) = true := by
        rw [m1]
        exact ⟨fun ⟨v, hv, h⟩ => huniq v hv ▸ h, fun h => ⟨w, hm, h⟩⟩
      have q2 : k ∈ ls.2.1 ↔ isSp ign (k, w) = true := by
        rw [m2]
        exact ⟨fun ⟨v, hv, h⟩ => huniq v hv ▸ h, fun h => ⟨w, hm, h⟩⟩
      have q3 : k ∈ ls.2.2 ↔ isIg ign (k, w) = true := by
        rw [m3]
        exact ⟨fun ⟨v, hv, h⟩ => huniq v hv ▸ h, fun h => ⟨w, hm, h⟩⟩
      simp only [q1, q2, q3]
      by_cases hi : k ∈ ign
      · cases w <;> simp [isIg, isNp, isSp, hi]
      · cases w <;> simp [isIg, isNp, isSp, hi, Val.isArray, npVal, spVal, hk]

theorem obsLoaded_obj (ign : List String) (attrs : Attrs) (k : String) (q : List String) :
    obsLoaded ign (.obj attrs) (k :: q) = if isBook k then Option.none else
      match Dict.get? attrs k with
      | some v => if k ∈ ign then obs .none q else obsLoaded ign v q
      | Option.none => Option.none := by
  rw [obsLoaded]

mutual
theorem saveVal_load (ok : Nat → Bool) (o : Opts) (hign : ∀ k ∈ o.ignore, isBook k = false) : ∀ (v : Val)
    (path : List String) (sep : Option (List String)) (st : St) (rs : Restores), Tidy v → SepOk o sep v →
    (saveVal ok o path sep v st).res = some rs → ∀ F : Dict (List String) Content,
    (∀ k r, Dict.get? F (path ++ k :: r) = Dict.get? (saveVal ok o path sep v st).st.files (path ++ k :: r)) →
    ∃ v', loadVal F path (saveVal ok o path sep v st).now = some v' ∧ ∀ q, obs v' q = obsLoaded o.ignore v q
  | .obj attrs, path, sep, st, rs, ht, hsep, h, F, hF => by
    rw [Tidy] at ht
    have hnms : ∀ k ∈ sep.getD (autoSep o.limit attrs) ++ o.ignore, isBook k = false ∧
        ∀ w, Dict.get? attrs k = some w → k ∉ o.ignore → w.isArray = true := by
      intro k hk
      rcases List.mem_append.1 hk with hk | hk
      · cases sep with
        | none =>
          refine ⟨?_, fun w hw _ => autoSep_array ht.1 hk hw⟩
          obtain ⟨v, hv, ha⟩ := mem_autoSep hk
          cases hb : isBook k with
          | false => rfl
          | true =>
            obtain ⟨l, rfl⟩ := (mem_TidyL ht.2 hv).1 hb
            exact (nomatch ha)
        | some l => exact hsep l rfl attrs rfl k hk
      · exact ⟨hign k hk, fun w _ hn => absurd hk hn⟩
    have higm : ∀ k, k ∉ sep.getD (autoSep o.limit attrs) ++ o.ignore → k ∉ o.ignore :=
      fun k hk hi => hk (List.mem_append_right _ hi)
    rw [saveVal] at h hF ⊢
    generalize sep.getD (autoSep o.limit attrs) ++ o.ignore = nms at h hF ⊢ hnms higm
    have hattrs := saveAttrs_load ok o hign attrs path nms st
    have hkeys := saveAttrs_keys ok o path nms attrs st
    cases hr : (saveAttrs ok o path nms attrs st).res with
    | none => rw [hr] at h; exact (nomatch h)
    | some rs1 =>
      rw [hr] at h hF
      simp only at h hF ⊢
      generalize hw : (setAside nms attrs).foldl (writeAside ok o path)
        ((saveAttrs ok o path nms attrs st).st, some ([], [], [])) = w at h hF ⊢
      obtain ⟨st', lists⟩ := w
      cases lists with
      | none => exact (nomatch h)
      | some lists =>
        simp only at h hF ⊢
        obtain ⟨hl, hfr, hst⟩ := writeAsides_some _ (setAside_WF nms attrs) hw
        have hak : ∀ k ∈ Dict.keys (setAside nms attrs), k ∈ nms := by
          intro k hk
          obtain ⟨v, hv⟩ := Option.isSome_iff_exists.1 ((Dict.get?_isSome_iff _ _).2 hk)
          rw [setAside_get] at hv
          by_contra hn
          rw [if_neg hn] at hv
          exact (nomatch hv)
        have hin := hattrs rs1 ht.2 ht.1 hr F (by
          intro k hk r
          rw [hF k r]
          refine hfr _ ?_
          intro k' r' he hk'
          simp only [List.append_cancel_left_eq, List.cons.injEq] at he
          rw [← he.1] at hk'
          exact hk (hak k hk'))
        have hrecs : ∀ k ∈ objNames nms attrs, isBook k = false := by
          intro k hk
          obtain ⟨_, a, hm⟩ := mem_objNames.1 hk
          cases hb : isBook k with
          | false => rfl
          | true =>
            obtain ⟨l, hl⟩ := (mem_TidyL ht.2 hm).1 hb
            exact (nomatch hl)
        have hnowWF : Dict.WF (saveAttrs ok o path nms attrs st).now := by
          unfold Dict.WF
          rw [hkeys]
          exact ht.1.filter _
        obtain ⟨a1, h1⟩ := loadAttrs_some F path (objNames nms attrs)
          (addBook (saveAttrs ok o path nms attrs st).now lists (objNames nms attrs)) (by
            intro p hp hrec
            obtain ⟨hg, a, hm⟩ := mem_objNames.1 hrec
            have hwf : Dict.WF (addBook (saveAttrs ok o path nms attrs st).now lists (objNames nms attrs)) :=
              Dict.WF_set (Dict.WF_set (Dict.WF_set (Dict.WF_set hnowWF _ _) _ _) _ _) _ _
            have hget := Dict.get?_of_mem hwf hp
            rw [get?_addBook _ _ _ _ (hrecs _ hrec)] at hget
            obtain ⟨w, hw1, _, v', hv', _⟩ := hin p.1 _ hg (Dict.get?_of_mem ht.1 hm)
            rw [hget] at hw1
            obtain rfl := Option.some.inj hw1
            rw [hv']
            rfl)
        obtain ⟨a4, h4, g4⟩ := loadOwn F path o.ignore (objNames nms attrs) (setAside nms attrs) (setAside_WF _ _)
          (fun k hk => (hnms k (hak k hk)).1) _ a1 lists hl (by
            intro p hp hi
            refine stored_congr (fun r => hF p.1 r) (hst p hp hi)) h1 hrecs
        refine ⟨.obj a4, h4, ?_⟩
        intro q
        cases q with
        | nil => rfl
        | cons k q =>
          rw [obs_obj, obsLoaded_obj]
          cases hb : isBook k with
          | true => rfl
          | false =>
            simp only [Bool.false_eq_true, if_false]
            unfold below
            rw [g4 k, setAside_get]
            by_cases hk : k ∈ nms
            · rw [if_pos hk]
              cases hg : Dict.get? attrs k with
              | none =>
                simp only
                have : Dict.get? a1 k = Option.none := by
                  rw [get?_loadAttrs F path _ k _ _ h1, get?_addBook _ _ _ _ hb]
                  have : Dict.get? (saveAttrs ok o path nms attrs st).now k = Option.none := by
                    rw [Dict.get?_eq_none_iff, hkeys]
                    intro hm
                    exact (Dict.get?_eq_none_iff _ _).1 hg (List.mem_filter.1 hm).1
                  rw [this]
                  rfl
                rw [this]
              | some w =>
                simp only
                by_cases hi : k ∈ o.ignore
                · simp [hi]
                · have ha := (hnms k hk).2 w hg hi
                  simp only [ha, hi, not_false_eq_true, and_self, if_true, if_false]
                  rw [obsLoaded_of_not_obj]
                  rintro a rfl
                  exact (nomatch ha)
            · rw [if_neg hk]
              simp only
              rw [get?_loadAttrs F path _ k _ _ h1, get?_addBook _ _ _ _ hb]
              cases hg : Dict.get? attrs k with
              | none =>
                have : Dict.get? (saveAttrs ok o path nms attrs st).now k = Option.none := by
                  rw [Dict.get?_eq_none_iff, hkeys]
                  intro hm
                  exact (Dict.get?_eq_none_iff _ _).1 hg (List.mem_filter.1 hm).1
                rw [this]
                rfl
              | some v =>
                obtain ⟨w, hw1, hw2, v', hv', hq⟩ := hin k v hk hg
                rw [hw1, Option.bind_some]
                simp only [higm k hk, if_false]
                by_cases hrec : k ∈ objNames nms attrs
                · rw [if_pos hrec, hv']
                  exact hq q
                · rw [if_neg hrec]
                  have hno : ∀ a, v ≠ .obj a := by
                    rintro a rfl
                    exact hrec (mem_objNames.2 ⟨hk, a, Dict.mem_of_get? hg⟩)
                  simp only
                  rw [hw2 hno, obsLoaded_of_not_obj _ _ hno]
  | .array s c, path, sep, st, rs, _, _, h, F, _ => by
    rw [saveVal]
    · exact ⟨_, by rw [loadVal]; simp, fun q => (obsLoaded_of_not_obj _ _ (by simp) q).symm⟩
    all_goals simp
  | .sparse n d i j, path, sep, st, rs, _, _, h, F, _ => by
    rw [saveVal]
    · exact ⟨_, by rw [loadVal]; simp, fun q => (obsLoaded_of_not_obj _ _ (by simp) q).symm⟩
    all_goals simp
  | .plain c, path, sep, st, rs, _, _, h, F, _ => by
    rw [saveVal]
    · exact ⟨_, by rw [loadVal]; simp, fun q => (obsLoaded_of_not_obj _ _ (by simp) q).symm⟩
    all_goals simp
  | .names l, path, sep, st, rs, _, _, h, F, _ => by
    rw [saveVal]
    · exact ⟨_, by rw [loadVal]; simp, fun q => (obsLoaded_of_not_obj _ _ (by simp) q).symm⟩
    all_goals simp
  | .none, path, sep, st, rs, _, _, h, F, _ => by
    rw [saveVal]
    · exact ⟨_, by rw [loadVal]; simp, fun q => (obsLoaded_of_not_obj _ _ (by simp) q).symm⟩
    all_goals simp
theorem saveAttrs_load (ok : Nat → Bool) (o : Opts) (hign : ∀ k ∈ o.ignore, isBook k = false) : ∀ (attrs : Attrs)
    (path gone : List String) (st : St) (rs : Restores), TidyL attrs → (Dict.keys attrs).Nodup →
    (saveAttrs ok o path gone attrs st).res = some rs → ∀ F : Dict (List String) Content,
    (∀ k, k ∉ gone → ∀ r, Dict.get? F (path ++ k :: r)
      = Dict.get? (saveAttrs ok o path gone attrs st).st.files (path ++ k :: r)) →
    ∀ k v, k ∉ gone → Dict.get? attrs k = some v →
      ∃ w, Dict.get? (saveAttrs ok o path gone attrs st).now k = some w ∧ ((∀ a, v ≠ .obj a) → w = v) ∧
        ∃ v', loadVal F (path ++ [k]) w = some v' ∧ ∀ q, obs v' q = obsLoaded o.ignore v q
  | [], path, gone, st, rs, _, _, h, F, _, k, v, _, hg => by simp at hg
  | (k0, v0) :: rest, path, gone, st, rs, ht, hnd, h, F, hF, k, v, hk, hg => by
    rw [TidyL] at ht
    simp only [Dict.keys_cons, List.nodup_cons] at hnd
    rw [Dict.get?_cons] at hg
    rw [saveAttrs] at h hF ⊢
    by_cases hk0 : k0 ∈ gone
    · rw [if_pos hk0] at h hF ⊢
      have hne : ¬ k0 = k := by rintro rfl; exact hk hk0
      simp only [hne, if_false] at hg
      exact saveAttrs_load ok o hign rest path gone st rs ht.2.2 hnd.2 h F hF k v hk hg
    · rw [if_neg hk0] at h hF ⊢
      have hv := saveVal_load ok o hign v0 (path ++ [k0]) Option.none st
      simp only at h hF ⊢
      cases hr : (saveVal ok o (path ++ [k0]) Option.none v0 st).res with
      | none => rw [hr] at h; exact (nomatch h)
      | some rs1 =>
        rw [hr] at h hF
        simp only at h hF ⊢
        obtain ⟨rs2, h2, rfl⟩ := Option.map_eq_some_iff.1 h
        have hfr := saveAttrs_frame ok o rest path gone _ rs2 h2
        rw [Dict.get?_cons]
        by_cases hne : k0 = k
        · simp only [hne, if_true] at hg ⊢
          obtain rfl := Option.some.inj hg
          rw [← hne]
          refine ⟨_, rfl, ?_, ?_⟩
          · intro hno
            cases v0 with
            | obj a => exact absurd rfl (hno a)
            | _ =>
              rw [saveVal]
              simp
          · refine hv rs1 ht.2.1 (fun l hl => (nomatch hl)) hr F ?_
            intro k' r
            have := hF k0 hk0 (k' :: r)
            rw [List.append_assoc, List.singleton_append, this]
            refine hfr _ ?_
            intro k2 r2 he hk2
            simp only [List.append_cancel_left_eq, List.cons.injEq] at he
            rw [← he.1] at hk2
            exact hnd.1 hk2.1
        · simp only [hne, if_false] at hg ⊢
          exact saveAttrs_load ok o hign rest path gone _ rs2 ht.2.2 hnd.2 h2 F hF k v hk hg
end

/-! ## C83 -/

/-- C83, partial: an object saved without an exception can be loaded, and every attribute of it and of the
objects inside it is as it was, except that the attributes not to be stored are `None`.  Missing: attributes
that the caller wants stored separately and that are neither arrays nor sparse matrices (`C83_false`). -/
theorem C83_partial (ok : Nat → Bool) (o : Opts) (sep : Option (List String)) (v : Val) (st : St)
    (hign : ∀ k ∈ o.ignore, isBook k = false) (ht : Tidy v) (hsep : SepOk o sep v)
    (h : (smartSave ok o sep v st).2.2 = true) :
    ∃ v', load (smartSave ok o sep v st).1.files = some v' ∧ ∀ q, obs v' q = obsLoaded o.ignore v q := by
  unfold smartSave at h ⊢
  simp only at h ⊢
  have hl := saveVal_load ok o hign v [] sep st
  cases hr : (saveVal ok o [] sep v st).res with
  | none => rw [hr] at h; exact (nomatch h)
  | some rs =>
    rw [hr] at h
    simp only at h ⊢
    unfold load
    rw [write_ok h]
    simp only
    exact hl rs ht hsep hr _ (fun k r => write_get_other (by simp))

/-- An object inside an object, large and small arrays, an attribute not stored. -/
example : let v := Val.obj [("inner", .obj [("x", .array 10 1), ("t", .plain 4)]), ("y", .sparse 10 2 3 4), ("z", .array 1 7), ("t", .plain 5)]
    let s := smartSave (fun _ => true) ⟨5, ["t"]⟩ Option.none v ⟨[], 0⟩
    Tidy v ∧ SepOk ⟨5, ["t"]⟩ Option.none v ∧ s.2.2 = true ∧
    obsLoaded ["t"] v ["inner", "x"] = some (.array 10 1) ∧ obsLoaded ["t"] v ["inner", "t"] = some .none ∧
    obsLoaded ["t"] v ["y"] = some (.sparse 10 2 3 4) := by
  refine ⟨?_, fun l hl => (nomatch hl), by decide, by decide, by decide, by decide⟩
  simp [Tidy, TidyL, Dict.keys, isBook]

/-- C83 is false: an attribute that the caller asks to be stored separately and that is no array is not stored
at all; no exception is raised and the loaded object has `None`. -/
theorem C83_false :
    let v := Val.obj [("words", .plain 5)]
    let s := smartSave (fun _ => true) ⟨5, []⟩ (some ["words"]) v ⟨[], 0⟩
    s.2.2 = true ∧ obs v ["words"] = some (.plain 5) ∧
      (load s.1.files).bind (fun w => obs w ["words"]) = some .none := by decide

end Verif.Setup.Save
