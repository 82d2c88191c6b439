import Verif.Setup.SaveLoad

/-!
# C52: saving leaves the object unchanged
-/

namespace Verif.Setup.Save

open Verif.Py

/-! ## Specification -/

/-- What is found at a place in an object. -/
inductive Leaf where
  | array (size content : Nat)
  | sparse (nnz data indptr indices : Nat)
  | plain (content : Nat)
  | names (l : List String)
  | none
  | object
deriving DecidableEq, Repr

def Val.leaf : Val → Leaf
  | .array s c => .array s c
  | .sparse n d i j => .sparse n d i j
  | .plain c => .plain c
  | .names l => .names l
  | .none => .none
  | .obj _ => .object

/-- The four bookkeeping attributes. -/
def isBook (k : String) : Bool :=
  k == "__numpys" || k == "__scipys" || k == "__ignoreds" || k == "__recursive_saveloads"

/-- `obj.a.b.c`: what is found by following attribute names, bookkeeping attributes excepted. -/
def obs : Val → List String → Option Leaf
  | v, [] => some v.leaf
  | .obj attrs, k :: p => if isBook k then Option.none else
    match Dict.get? attrs k with
    | some v => obs v p
    | Option.none => Option.none
  | _, _ :: _ => Option.none

mutual
/-- A dictionary has every name once; the names of the bookkeeping attributes are not used for objects. -/
def Good : Val → Prop
  | .obj attrs => (Dict.keys attrs).Nodup ∧ GoodL attrs
  | _ => True
def GoodL : Attrs → Prop
  | [] => True
  | (k, v) :: rest => (isBook k = true → ∀ a, v ≠ .obj a) ∧ Good v ∧ GoodL rest
end

/-! ## Small lemmas -/

/-- What is found below one attribute. -/
def below (attrs : Attrs) (k : String) (q : List String) : Option Leaf :=
  match Dict.get? attrs k with
  | some v => obs v q
  | Option.none => Option.none

theorem obs_obj (attrs : Attrs) (k : String) (q : List String) :
    obs (.obj attrs) (k :: q) = if isBook k then Option.none else below attrs k q := by
  rw [obs]
  rfl

theorem setAside_get (nms : List String) (attrs : Attrs) (k : String) :
    Dict.get? (setAside nms attrs) k = if k ∈ nms then Dict.get? attrs k else Option.none := by
  unfold setAside
  have : ∀ (acc : Dict String Val), Dict.get? (nms.foldl (fun asides k => match Dict.get? attrs k with
      | some v => Dict.set asides k v
      | Option.none => asides) acc) k
      = if k ∈ nms ∧ (Dict.get? attrs k).isSome then Dict.get? attrs k else Dict.get? acc k := by
    induction nms with
    | nil => intro acc; simp
    | cons n nms ih =>
      intro acc
      rw [List.foldl_cons, ih]
      by_cases hk : k ∈ nms ∧ (Dict.get? attrs k).isSome
      · rw [if_pos hk, if_pos ⟨List.mem_cons_of_mem _ hk.1, hk.2⟩]
      · rw [if_neg hk]
        by_cases hn : n = k
        · subst hn
          cases hg : Dict.get? attrs n with
          | none => simp
          | some v => simp [Dict.get?_set]
        · have : (k ∈ n :: nms ∧ (Dict.get? attrs k).isSome) ↔ (k ∈ nms ∧ (Dict.get? attrs k).isSome) := by
            simp [List.mem_cons, Ne.symm hn]
          rw [if_neg (fun h => hk (this.1 h))]
          cases hg : Dict.get? attrs n with
          | none => rfl
          | some v => simp [Dict.get?_set, hn]
  refine (this []).trans ?_
  by_cases hk : k ∈ nms
  · cases hg : Dict.get? attrs k <;> simp [hk]
  · simp [hk]

theorem setAside_WF (nms : List String) (attrs : Attrs) : Dict.WF (setAside nms attrs) := by
  unfold setAside
  have : ∀ (acc : Dict String Val), Dict.WF acc → Dict.WF (nms.foldl (fun asides k => match Dict.get? attrs k with
      | some v => Dict.set asides k v
      | Option.none => asides) acc) := by
    induction nms with
    | nil => intro acc h; exact h
    | cons n nms ih =>
      intro acc h
      rw [List.foldl_cons]
      refine ih _ ?_
      cases Dict.get? attrs n with
      | none => exact h
      | some v => exact Dict.WF_set h _ _
  exact this [] Dict.WF_nil

/-- The change of one entry made by restoring below it. -/
def touch (f : Val → Val) (k : String) (p : String × Val) : String × Val := if p.1 = k then (p.1, f p.2) else p

theorem touch_fst (f : Val → Val) (k : String) (p : String × Val) : (touch f k p).1 = p.1 := by
  unfold touch; split <;> rfl

theorem updAt_cons (f : Attrs → Attrs) (k : String) (path : List String) (attrs : Attrs) :
    updAt f (k :: path) (.obj attrs) = .obj (attrs.map (touch (updAt f path) k)) := by
  rw [updAt]; rfl

theorem restoreAll_append (rs rs' : Restores) (v : Val) :
    restoreAll (rs ++ rs') v = restoreAll rs' (restoreAll rs v) := by
  unfold restoreAll
  rw [List.foldl_append]

theorem restoreAll_cons (p : List String × Dict String Val) (rs : Restores) (v : Val) :
    restoreAll (p :: rs) v = restoreAll rs (updAt (fun attrs => Dict.update attrs p.2) p.1 v) := rfl

theorem map_touch_of_notMem {f : Val → Val} {k : String} {attrs : Attrs} (h : k ∉ Dict.keys attrs) :
    attrs.map (touch f k) = attrs := by
  induction attrs with
  | nil => rfl
  | cons p attrs ih =>
    simp only [Dict.keys_cons, List.mem_cons, not_or] at h
    rw [List.map_cons, ih h.2]
    unfold touch
    rw [if_neg (Ne.symm h.1)]

theorem restoreAll_prefix (k : String) (rs : Restores) (attrs : Attrs) :
    restoreAll (rs.map (fun p => (k :: p.1, p.2))) (.obj attrs) = .obj (attrs.map (touch (restoreAll rs) k)) := by
  induction rs generalizing attrs with
  | nil =>
    have : attrs.map (touch (restoreAll []) k) = attrs := by
      refine (List.map_congr_left (fun p _ => ?_)).trans (List.map_id _)
      unfold touch restoreAll
      split <;> rfl
    rw [this]
    rfl
  | cons r rs ih =>
    rw [List.map_cons, restoreAll_cons]
    simp only
    rw [updAt_cons, ih, List.map_map]
    congr 1
    refine List.map_congr_left (fun p _ => ?_)
    simp only [Function.comp, touch]
    by_cases hp : p.1 = k
    · simp [hp, restoreAll_cons]
    · simp [hp]

/-- Restores that begin with other names leave an entry in front alone. -/
theorem restoreAll_front (rs : Restores) (k : String) (x : Val) (attrs : Attrs)
    (h : ∀ r ∈ rs, ∃ k' p, r.1 = k' :: p ∧ k' ≠ k) :
    ∃ attrs', restoreAll rs (.obj attrs) = .obj attrs' ∧
      restoreAll rs (.obj ((k, x) :: attrs)) = .obj ((k, x) :: attrs') := by
  induction rs generalizing attrs with
  | nil => exact ⟨attrs, rfl, rfl⟩
  | cons r rs ih =>
    obtain ⟨k', p, hr, hk⟩ := h r (by simp)
    obtain ⟨rp, ra⟩ := r
    simp only at hr
    subst hr
    obtain ⟨attrs', h1, h2⟩ := ih (attrs.map (touch (updAt (fun a => Dict.update a ra) p) k'))
      (fun r hr => h r (List.mem_cons_of_mem _ hr))
    refine ⟨attrs', ?_, ?_⟩
    · rw [restoreAll_cons, updAt_cons]; exact h1
    · rw [restoreAll_cons, updAt_cons, List.map_cons]
      have : touch (updAt (fun a => Dict.update a ra) p) k' (k, x) = (k, x) := by
        unfold touch; rw [if_neg (Ne.symm hk)]
      simp only
      rw [this]
      exact h2

theorem map_set_comm (f : String × Val → String × Val) (hf : ∀ p, (f p).1 = p.1) (b : String) (w : Val)
    (hb : f (b, w) = (b, w)) (hb' : ∀ v, (f (b, v)).1 = b) (attrs : Attrs) :
    (Dict.set attrs b w).map f = Dict.set (attrs.map f) b w := by
  induction attrs with
  | nil => simp [Dict.set, hb]
  | cons p attrs ih =>
    obtain ⟨a, v⟩ := p
    rw [List.map_cons]
    have ha : (f (a, v)).1 = a := hf _
    generalize hfa : f (a, v) = q at ha
    obtain ⟨q1, q2⟩ := q
    simp only at ha
    subst ha
    by_cases h : q1 = b
    · subst h
      simp [Dict.set, hb]
    · simp [Dict.set, h, ih, hfa]

/-- Setting an attribute commutes with restores below other attributes. -/
theorem restoreAll_set (rs : Restores) (b : String) (w : Val)
    (h : ∀ r ∈ rs, ∃ k' p, r.1 = k' :: p ∧ k' ≠ b) :
    ∀ attrs attrs', restoreAll rs (.obj attrs) = .obj attrs' →
      restoreAll rs (.obj (Dict.set attrs b w)) = .obj (Dict.set attrs' b w) := by
  induction rs with
  | nil =>
    intro attrs attrs' he
    have : attrs = attrs' := Val.obj.inj he
    rw [this]
    rfl
  | cons r rs ih =>
    intro attrs attrs' he
    obtain ⟨k', p, hr, hk⟩ := h r (by simp)
    obtain ⟨rp, ra⟩ := r
    simp only at hr
    subst hr
    rw [restoreAll_cons, updAt_cons] at he ⊢
    rw [map_set_comm _ (touch_fst _ _) b w (by unfold touch; rw [if_neg (Ne.symm hk)]) (fun v => touch_fst _ _ _)]
    exact ih (fun r hr => h r (List.mem_cons_of_mem _ hr)) _ _ he

/-! ## Saving without failure before the last write -/

theorem saveAttrs_keys (ok : Nat → Bool) (o : Opts) (path gone : List String) (attrs : Attrs) (st : St) :
    Dict.keys (saveAttrs ok o path gone attrs st).now = (Dict.keys attrs).filter (fun k => decide (k ∉ gone)) := by
  induction attrs generalizing st with
  | nil => rw [saveAttrs]; rfl
  | cons p rest ih =>
    obtain ⟨k, v⟩ := p
    rw [saveAttrs]
    by_cases hk : k ∈ gone
    · simp [hk, ih]
    · rw [if_neg hk]
      simp only
      cases hr : (saveVal ok o (path ++ [k]) Option.none v st).res with
      | none =>
        simp only [Dict.keys_cons, List.filter_cons, hk, not_false_eq_true, decide_true, if_true]
        congr 1
        unfold Dict.keys
        rw [List.filter_map]
        rfl
      | some rs =>
        simp only [Dict.keys_cons, List.filter_cons, hk, not_false_eq_true, decide_true, if_true]
        rw [ih]

theorem saveAttrs_heads (ok : Nat → Bool) (o : Opts) (path gone : List String) (attrs : Attrs) (st : St)
    (rs : Restores) (h : (saveAttrs ok o path gone attrs st).res = some rs) :
    ∀ r ∈ rs, ∃ k' p a, r.1 = k' :: p ∧ (k', Val.obj a) ∈ attrs := by
  induction attrs generalizing st rs with
  | nil =>
    rw [saveAttrs] at h
    obtain rfl := Option.some.inj h
    simp
  | cons p rest ih =>
    obtain ⟨k, v⟩ := p
    rw [saveAttrs] at h
    by_cases hk : k ∈ gone
    · rw [if_pos hk] at h
      intro r hr
      obtain ⟨k', p, a, h1, h2⟩ := ih st rs h r hr
      exact ⟨k', p, a, h1, List.mem_cons_of_mem _ h2⟩
    · rw [if_neg hk] at h
      simp only at h
      cases hr : (saveVal ok o (path ++ [k]) Option.none v st).res with
      | none => rw [hr] at h; exact (nomatch h)
      | some rs1 =>
        rw [hr] at h
        simp only at h
        obtain ⟨rs2, h2, rfl⟩ := Option.map_eq_some_iff.1 h
        intro r hr'
        rcases List.mem_append.1 hr' with hr' | hr'
        · obtain ⟨q, hq, rfl⟩ := List.mem_map.1 hr'
          cases v with
          | obj a => exact ⟨k, q.1, a, rfl, by simp⟩
          | _ =>
            rw [saveVal] at hr
            · obtain rfl := Option.some.inj hr
              simp at hq
            all_goals simp
        · obtain ⟨k', p, a, h1, h3⟩ := ih _ rs2 h2 r hr'
          exact ⟨k', p, a, h1, List.mem_cons_of_mem _ h3⟩

theorem mem_GoodL {attrs : Attrs} (h : GoodL attrs) {k : String} {a : Attrs} (hm : (k, Val.obj a) ∈ attrs) :
    isBook k = false := by
  induction attrs with
  | nil => simp at hm
  | cons p rest ih =>
    obtain ⟨k', v⟩ := p
    rw [GoodL] at h
    rcases List.mem_cons.1 hm with he | hm
    · simp only [Prod.mk.injEq] at he
      obtain ⟨rfl, rfl⟩ := he
      cases hb : isBook k with
      | false => rfl
      | true => exact absurd rfl (h.1 hb a)
    · exact ih h.2.2 hm

theorem get?_addBook (attrs : Attrs) (l : Lists) (recs : List String) (k : String) (h : isBook k = false) :
    Dict.get? (addBook attrs l recs) k = Dict.get? attrs k := by
  unfold isBook at h
  simp only [Bool.or_eq_false_iff, beq_eq_false_iff_ne, ne_eq] at h
  obtain ⟨⟨⟨h1, h2⟩, h3⟩, h4⟩ := h
  unfold addBook
  simp only [Dict.get?_set, Ne.symm h1, Ne.symm h2, Ne.symm h3, Ne.symm h4, if_false]

mutual
theorem saveVal_restore (ok : Nat → Bool) (o : Opts) : ∀ (v : Val) (path : List String) (sep : Option (List String))
    (st : St) (rs : Restores), Good v → (saveVal ok o path sep v st).res = some rs →
    ∀ q, obs (restoreAll rs (saveVal ok o path sep v st).now) q = obs v q
  | .obj attrs, path, sep, st, rs, hg, h, q => by
    rw [Good] at hg
    rw [saveVal] at h ⊢
    generalize hn : sep.getD (autoSep o.limit attrs) ++ o.ignore = nms at h ⊢
    have hattrs := saveAttrs_restore ok o attrs path nms st
    have hheads := saveAttrs_heads ok o path nms attrs st
    cases hr : (saveAttrs ok o path nms attrs st).res with
    | none => rw [hr] at h; exact (nomatch h)
    | some rs1 =>
      rw [hr] at h
      simp only at h ⊢
      obtain ⟨attrs', he, hbel, hgone⟩ := hattrs rs1 hg.2 hg.1 hr
      generalize hw : (setAside nms attrs).foldl (writeAside ok o path)
        ((saveAttrs ok o path nms attrs st).st, some ([], [], [])) = w at h ⊢
      obtain ⟨st', lists⟩ := w
      cases lists with
      | none => exact (nomatch h)
      | some lists =>
        simp only at h ⊢
        obtain rfl := Option.some.inj h
        rw [restoreAll_append]
        have hne : ∀ b, isBook b = true → ∀ r ∈ rs1, ∃ k' p, r.1 = k' :: p ∧ k' ≠ b := by
          intro b hb r hr'
          obtain ⟨k', p, a, h1, h2⟩ := hheads rs1 hr r hr'
          refine ⟨k', p, h1, ?_⟩
          rintro rfl
          rw [mem_GoodL hg.2 h2] at hb
          exact (nomatch hb)
        have hb : restoreAll rs1 (.obj (addBook (saveAttrs ok o path nms attrs st).now lists (objNames nms attrs)))
            = .obj (addBook attrs' lists (objNames nms attrs)) := by
          unfold addBook
          exact restoreAll_set rs1 _ _ (hne _ (by decide)) _ _ (restoreAll_set rs1 _ _ (hne _ (by decide)) _ _
            (restoreAll_set rs1 _ _ (hne _ (by decide)) _ _ (restoreAll_set rs1 _ _ (hne _ (by decide)) _ _ he)))
        rw [hb]
        have hfin : restoreAll [([], setAside nms attrs)] (.obj (addBook attrs' lists (objNames nms attrs)))
            = .obj (Dict.update (addBook attrs' lists (objNames nms attrs)) (setAside nms attrs)) := by
          rw [restoreAll_cons, updAt]
          rfl
        rw [hfin]
        cases q with
        | nil => rfl
        | cons k q =>
          rw [obs_obj, obs_obj]
          cases hk : isBook k with
          | true => rfl
          | false =>
            simp only [Bool.false_eq_true, if_false]
            unfold below
            rw [Dict.get?_update (setAside_WF _ _), setAside_get, get?_addBook _ _ _ _ hk]
            by_cases hkn : k ∈ nms
            · rw [if_pos hkn, hgone k hkn]
              cases Dict.get? attrs k <;> rfl
            · rw [if_neg hkn]
              exact hbel k hkn q
  | .array s c, path, sep, st, rs, _, h, q => by
    rw [saveVal] at h ⊢
    · obtain rfl := Option.some.inj h; rfl
    all_goals simp
  | .sparse n d i j, path, sep, st, rs, _, h, q => by
    rw [saveVal] at h ⊢
    · obtain rfl := Option.some.inj h; rfl
    all_goals simp
  | .plain c, path, sep, st, rs, _, h, q => by
    rw [saveVal] at h ⊢
    · obtain rfl := Option.some.inj h; rfl
    all_goals simp
  | .names l, path, sep, st, rs, _, h, q => by
    rw [saveVal] at h ⊢
    · obtain rfl := Option.some.inj h; rfl
    all_goals simp
  | .none, path, sep, st, rs, _, h, q => by
    rw [saveVal] at h ⊢
    · obtain rfl := Option.some.inj h; rfl
    all_goals simp
theorem saveAttrs_restore (ok : Nat → Bool) (o : Opts) : ∀ (attrs : Attrs) (path gone : List String) (st : St)
    (rs : Restores), GoodL attrs → (Dict.keys attrs).Nodup → (saveAttrs ok o path gone attrs st).res = some rs →
    ∃ attrs', restoreAll rs (.obj (saveAttrs ok o path gone attrs st).now) = .obj attrs' ∧
      (∀ k, k ∉ gone → ∀ q, below attrs' k q = below attrs k q) ∧
      (∀ k, k ∈ gone → Dict.get? attrs' k = Option.none)
  | [], path, gone, st, rs, _, _, h => by
    rw [saveAttrs] at h ⊢
    obtain rfl := Option.some.inj h
    exact ⟨[], rfl, fun _ _ _ => rfl, fun _ _ => rfl⟩
  | (k, v) :: rest, path, gone, st, rs, hg, hnd, h => by
    rw [GoodL] at hg
    simp only [Dict.keys_cons, List.nodup_cons] at hnd
    rw [saveAttrs] at h ⊢
    by_cases hk : k ∈ gone
    · rw [if_pos hk] at h ⊢
      obtain ⟨attrs', h1, h2, h3⟩ := saveAttrs_restore ok o rest path gone st rs hg.2.2 hnd.2 h
      refine ⟨attrs', h1, fun k' hk' q => ?_, h3⟩
      rw [h2 k' hk' q]
      unfold below
      rw [Dict.get?_cons, if_neg (by rintro rfl; exact hk' hk)]
    · rw [if_neg hk] at h ⊢
      simp only at h ⊢
      have hv := saveVal_restore ok o v (path ++ [k]) Option.none st
      cases hr : (saveVal ok o (path ++ [k]) Option.none v st).res with
      | none => rw [hr] at h; exact (nomatch h)
      | some rs1 =>
        rw [hr] at h
        simp only at h ⊢
        obtain ⟨rs2, h2, rfl⟩ := Option.map_eq_some_iff.1 h
        have hv' := hv rs1 hg.2.1 hr
        have hheads := saveAttrs_heads ok o path gone rest _ rs2 h2
        obtain ⟨attrs', i1, i2, i3⟩ := saveAttrs_restore ok o rest path gone _ rs2 hg.2.2 hnd.2 h2
        have hkeys := saveAttrs_keys ok o path gone rest (saveVal ok o (path ++ [k]) Option.none v st).st
        have hknow : k ∉ Dict.keys (saveAttrs ok o path gone rest
            (saveVal ok o (path ++ [k]) Option.none v st).st).now := by
          rw [hkeys]
          intro hmem
          exact hnd.1 (List.mem_filter.1 hmem).1
        rw [restoreAll_append, restoreAll_prefix, List.map_cons, map_touch_of_notMem hknow]
        have ht : touch (restoreAll rs1) k (k, (saveVal ok o (path ++ [k]) Option.none v st).now)
            = (k, restoreAll rs1 (saveVal ok o (path ++ [k]) Option.none v st).now) := by
          unfold touch; simp
        rw [ht]
        obtain ⟨attrs'', j1, j2⟩ := restoreAll_front rs2 k
          (restoreAll rs1 (saveVal ok o (path ++ [k]) Option.none v st).now) _ (by
            intro r hr'
            obtain ⟨k', p, a, e1, e2⟩ := hheads r hr'
            refine ⟨k', p, e1, ?_⟩
            rintro rfl
            exact hnd.1 (List.mem_map.2 ⟨_, e2, rfl⟩))
        rw [j1] at i1
        obtain rfl := Val.obj.inj i1
        refine ⟨_, j2, fun k' hk' q => ?_, fun k' hk' => ?_⟩
        · unfold below
          rw [Dict.get?_cons, Dict.get?_cons]
          by_cases hkk : k = k'
          · simp only [hkk, if_true]
            rw [← hkk]
            exact hv' q
          · simp only [hkk, if_false]
            exact i2 k' hk' q
        · rw [Dict.get?_cons, if_neg (by rintro rfl; exact hk hk')]
          exact i3 k' hk'
end

/-! ## C52 -/

/-- C52, partial: if no exception occurs before the object itself is pickled — then or later one may — every
attribute of the object and of the objects inside it is as before (the four bookkeeping attributes excepted,
which saving adds).  Missing: exceptions while the separate files are written (`C52_false_inner`,
`C52_false_outer`; for objects without inner objects see `C52_flat`). -/
theorem C52_partial (ok : Nat → Bool) (o : Opts) (sep : Option (List String)) (v : Val) (st : St) (hg : Good v)
    (h : (saveVal ok o [] sep v st).res ≠ Option.none) :
    ∀ q, obs (smartSave ok o sep v st).2.1 q = obs v q := by
  intro q
  unfold smartSave
  simp only
  cases hr : (saveVal ok o [] sep v st).res with
  | none => exact absurd hr h
  | some rs => exact saveVal_restore ok o v [] sep st rs hg hr q

/-- No attribute is itself a `SaveLoad` object. -/
def Flat (attrs : Attrs) : Prop := ∀ p ∈ attrs, ∀ a, p.2 ≠ Val.obj a

theorem saveAttrs_flat (ok : Nat → Bool) (o : Opts) (path gone : List String) (attrs : Attrs) (hf : Flat attrs)
    (st : St) : saveAttrs ok o path gone attrs st
      = ⟨st, attrs.filter (fun p => decide (p.1 ∉ gone)), some []⟩ := by
  induction attrs generalizing st with
  | nil => rw [saveAttrs]; rfl
  | cons p rest ih =>
    obtain ⟨k, v⟩ := p
    rw [saveAttrs]
    have ih' := ih (fun p hp => hf p (List.mem_cons_of_mem _ hp)) st
    have hv : saveVal ok o (path ++ [k]) Option.none v st = ⟨st, v, some []⟩ := by
      have := hf (k, v) (by simp)
      cases v with
      | obj a => exact absurd rfl (this a)
      | _ =>
        rw [saveVal]
        simp
    by_cases hk : k ∈ gone
    · rw [if_pos hk, ih', List.filter_cons]
      simp [hk]
    · rw [if_neg hk, hv, List.filter_cons]
      simp [hk, ih']

/-- C52 for objects without inner objects: whatever write fails, every attribute is as before. -/
theorem C52_flat (ok : Nat → Bool) (o : Opts) (sep : Option (List String)) (attrs : Attrs) (st : St)
    (hnd : (Dict.keys attrs).Nodup) (hf : Flat attrs) :
    ∀ q, obs (smartSave ok o sep (.obj attrs) st).2.1 q = obs (.obj attrs) q := by
  have hg : Good (.obj attrs) := by
    rw [Good]
    refine ⟨hnd, ?_⟩
    clear hnd
    induction attrs with
    | nil => rw [GoodL]; trivial
    | cons p rest ih =>
      obtain ⟨k, v⟩ := p
      rw [GoodL]
      have hv := hf (k, v) (by simp)
      refine ⟨fun _ a => hv a, ?_, ih (fun p hp => hf p (List.mem_cons_of_mem _ hp))⟩
      cases v with
      | obj a => exact absurd rfl (hv a)
      | _ => simp [Good]
  by_cases h : (saveVal ok o [] sep (.obj attrs) st).res = Option.none
  · intro q
    unfold smartSave
    simp only [h]
    rw [saveVal] at h ⊢
    rw [saveAttrs_flat ok o _ _ attrs hf] at h ⊢
    generalize hn : sep.getD (autoSep o.limit attrs) ++ o.ignore = nms at h ⊢
    simp only at h ⊢
    generalize (setAside nms attrs).foldl (writeAside ok o []) (st, some ([], [], [])) = w at h ⊢
    obtain ⟨st', lists⟩ := w
    cases lists with
    | some l => exact (nomatch h)
    | none =>
      simp only
      cases q with
      | nil => rfl
      | cons k q =>
        rw [obs_obj, obs_obj]
        congr 1
        unfold below
        rw [Dict.get?_update (setAside_WF _ _), setAside_get]
        have hfil := Dict.get?_filter (d := attrs) hnd (fun p => decide (p.1 ∉ nms)) k
        rw [hfil]
        by_cases hk : k ∈ nms
        · cases hg : Dict.get? attrs k <;> simp [hk]
        · cases hg : Dict.get? attrs k <;> simp [hk, Option.filter]
  · exact C52_partial ok o sep _ st hg h

/-- Three attributes, two of them large; the second write fails. -/
example : (smartSave (fun n => n == 0) ⟨5, []⟩ Option.none
    (.obj [("x", .array 10 1), ("n", .plain 3), ("m", .sparse 10 1 2 3)]) ⟨[], 0⟩).2.2 = false := by decide

/-- C52 is false with inner objects: the array of an inner object was stored, then writing the object's own
array fails; the inner object has lost its array. -/
theorem C52_false_inner :
    let v := Val.obj [("inner", .obj [("x", .array 10 1)]), ("y", .array 10 2)]
    let after := (smartSave (fun n => n == 0) ⟨5, []⟩ Option.none v ⟨[], 0⟩).2.1
    obs v ["inner", "x"] = some (.array 10 1) ∧ obs after ["inner", "x"] = Option.none := by decide

/-- C52 is false: writing the array of an inner object fails; the object itself has lost its own array. -/
theorem C52_false_outer :
    let v := Val.obj [("inner", .obj [("x", .array 10 1)]), ("y", .array 10 2)]
    let after := (smartSave (fun _ => false) ⟨5, []⟩ Option.none v ⟨[], 0⟩).2.1
    obs v ["y"] = some (.array 10 2) ∧ obs after ["y"] = Option.none ∧
      obs after ["inner", "x"] = some (.array 10 1) := by decide

/-- A nested object that is saved without failure. -/
example : let v := Val.obj [("inner", .obj [("x", .array 10 1)]), ("y", .array 10 2)]
    Good v ∧ (saveVal (fun n => n != 2) ⟨5, []⟩ [] Option.none v ⟨[], 0⟩).res.isSome := by
  refine ⟨?_, by decide⟩
  simp [Good, GoodL, Dict.keys, isBook]

end Verif.Setup.Save
