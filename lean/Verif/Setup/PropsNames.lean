import Verif.Setup.Names
import Verif.Setup.PropsFiles

/-! # Property theorems C261 (objects saved under different names) -/

namespace Verif.Setup.Save
open Verif.Py

/-- Names without a dot, as those of attributes. -/
def NoDot (s : String) : Prop := '.' ∉ s.toList

/-- Parts, each after a dot. -/
def dotted : List (List Char) → List Char
  | [] => []
  | p :: ps => '.' :: (p ++ dotted ps)

theorem joinDot_dotted (p : List Char) (ps : List (List Char)) : joinDot (p :: ps) = p ++ dotted ps := by
  induction ps generalizing p with
  | nil => simp [joinDot, dotted]
  | cons q ps ih => rw [joinDot, ih]; rfl

/-- The name passed on to inner objects leads to the same names as all parts at once. -/
theorem subname_inner (fname name k : List Char) (args : List (List Char)) :
    subname fname (cfname name k) args = subname fname name (k :: args) := by
  unfold subname cfname
  simp only [List.cons_append, joinDot_dotted, dotted, List.append_nil, List.append_assoc]

theorem dotted_inj : ∀ (ps qs : List (List Char)), (∀ p ∈ ps, '.' ∉ p) → (∀ q ∈ qs, '.' ∉ q) → dotted ps = dotted qs → ps = qs := by
  have cut : ∀ (p q x y : List Char), '.' ∉ p → '.' ∉ q → (x = [] ∨ ∃ x', x = '.' :: x') → (y = [] ∨ ∃ y', y = '.' :: y') →
      p ++ x = q ++ y → p = q ∧ x = y := by
    intro p
    induction p with
    | nil =>
      intro q x y _ hq hx hy h
      cases q with
      | nil => exact ⟨rfl, h⟩
      | cons c q =>
        rcases hx with rfl | ⟨x', rfl⟩
        · simp at h
        · simp only [List.nil_append, List.cons_append, List.cons.injEq] at h
          exact absurd (by simp [← h.1]) hq
    | cons c p ih =>
      intro q x y hp hq hx hy h
      cases q with
      | nil =>
        rcases hy with rfl | ⟨y', rfl⟩
        · simp at h
        · simp only [List.nil_append, List.cons_append, List.cons.injEq] at h
          exact absurd (by simp [h.1]) hp
      | cons e q =>
        simp only [List.cons_append, List.cons.injEq] at h
        obtain ⟨a, b⟩ := ih q x y (fun hm => hp (by simp [hm])) (fun hm => hq (by simp [hm])) hx hy h.2
        exact ⟨by rw [h.1, a], b⟩
  have start : ∀ ps, dotted ps = [] ∨ ∃ x, dotted ps = '.' :: x := by
    intro ps
    cases ps with
    | nil => exact Or.inl rfl
    | cons p ps => exact Or.inr ⟨_, rfl⟩
  intro ps
  induction ps with
  | nil =>
    intro qs _ _ h
    cases qs with
    | nil => rfl
    | cons q qs => simp [dotted] at h
  | cons p ps ih =>
    intro qs hp hq h
    cases qs with
    | nil => simp [dotted] at h
    | cons q qs =>
      simp only [dotted, List.cons.injEq, true_and] at h
      obtain ⟨a, b⟩ := cut p q _ _ (hp p (by simp)) (hq q (by simp)) (start ps) (start qs) h
      rw [a, ih qs (fun x hx => hp x (by simp [hx])) (fun x hx => hq x (by simp [hx])) b]

/-- What follows the name given. -/
theorem fileName_eq (f : List Char) (key : List String) : ∃ x, fileName f key = f ++ x ∧ (x = [] ∨ ∃ y, x = '.' :: y) := by
  cases key with
  | nil => exact ⟨[], by simp [fileName], Or.inl rfl⟩
  | cons k key =>
    refine ⟨dotted ((k :: key).map String.toList ++ [(adaptSuffix f).2]), ?_, Or.inr ⟨_, rfl⟩⟩
    show joinDot (f :: (k :: key).map String.toList ++ [(adaptSuffix f).2]) = _
    rw [List.cons_append, joinDot_dotted]

theorem adaptSuffix_noDot (f : List Char) : '.' ∉ (adaptSuffix f).2 := by
  unfold adaptSuffix
  split <;> decide

/-- The arrays of one object are stored in different files. -/
theorem C261_within (f : List Char) {key key' : List String} (h : ∀ k ∈ key, NoDot k) (h' : ∀ k ∈ key', NoDot k)
    (he : fileName f key = fileName f key') : key = key' := by
  have hd : ∀ (key : List String), (∀ k ∈ key, NoDot k) → ∀ p ∈ key.map String.toList ++ [(adaptSuffix f).2], '.' ∉ p := by
    intro key h p hp
    rcases List.mem_append.1 hp with hp | hp
    · obtain ⟨k, hk, rfl⟩ := List.mem_map.1 hp
      exact h k hk
    · rw [List.mem_singleton.1 hp]; exact adaptSuffix_noDot f
  have hn : ∀ (k : String) (key : List String), fileName f (k :: key) = f ++ dotted ((k :: key).map String.toList ++ [(adaptSuffix f).2]) := by
    intro k key
    show joinDot (f :: (k :: key).map String.toList ++ [(adaptSuffix f).2]) = _
    rw [List.cons_append, joinDot_dotted]
  cases key with
  | nil =>
    cases key' with
    | nil => rfl
    | cons k key' =>
      rw [hn] at he
      simp [fileName, dotted] at he
  | cons k key =>
    cases key' with
    | nil =>
      rw [hn] at he
      simp [fileName, dotted] at he
    | cons k' key' =>
      rw [hn, hn] at he
      have h1 := dotted_inj _ _ (hd _ h) (hd _ h') (List.append_cancel_left he)
      have h2 := List.append_cancel_right h1
      exact List.map_injective_iff.2 (fun a b hab => String.toList_inj.1 hab) h2

/-- Every file that saving an object writes has a name of its own, if no name of an attribute has a dot. -/
theorem C261_saved (ok : Nat → Bool) (o : Opts) (attrs : Attrs) (n : Nat) (ht : Tidy (.obj attrs))
    (hd : ∀ q w, obs (.obj attrs) q = some w → ∀ k ∈ q, NoDot k)
    (h : (smartSave ok o Option.none (.obj attrs) ⟨[], n⟩).2.2 = true) (f : List Char) {p p' : List String} {c c' : Content}
    (hp : Dict.get? (smartSave ok o Option.none (.obj attrs) ⟨[], n⟩).1.files p = some c)
    (hp' : Dict.get? (smartSave ok o Option.none (.obj attrs) ⟨[], n⟩).1.files p' = some c')
    (he : fileName f p = fileName f p') : p = p' ∧ c = c' := by
  have key : ∀ (p : List String) (c : Content), Dict.get? (smartSave ok o Option.none (.obj attrs) ⟨[], n⟩).1.files p = some c →
      ∀ k ∈ p, NoDot k := by
    intro p c hp k hk
    have hne : p ≠ [] := by rintro rfl; simp at hk
    obtain ⟨q, r, w, rfl, _, hw, _, hf⟩ := (C162_files ok o attrs n ht h p hne c).1 hp
    rcases List.mem_append.1 hk with hk | hk
    · exact hd q w hw k hk
    · cases w with
      | array size x => rw [hf.1] at hk; simp at hk
      | sparse nnz d i j =>
        rcases hf with hf | hf | hf | hf <;> rw [hf.1] at hk
        · simp at hk
        all_goals
          rw [List.mem_singleton.1 hk]
          unfold NoDot
          decide
      | _ => exact hf.elim
  have e := C261_within f (key p c hp) (key p' c' hp') he
  subst e
  rw [hp] at hp'
  exact ⟨rfl, Option.some.inj hp'⟩

/-- Objects saved under two names have no file in common if neither name is the other one with something after a dot. -/
theorem C261_partial {f g : List Char} (hne : f ≠ g) (hf : ¬ (f ++ ['.']) <+: g) (hg : ¬ (g ++ ['.']) <+: f) (key key' : List String) :
    fileName f key ≠ fileName g key' := by
  have one : ∀ (f g x y : List Char), f ≠ g → ¬ (f ++ ['.']) <+: g → (x = [] ∨ ∃ x', x = '.' :: x') → ∀ z, g = f ++ z → x = z ++ y → False := by
    intro f g x y hne hf hx z hz hxz
    cases z with
    | nil => exact hne (by simpa using hz.symm)
    | cons c z =>
      rcases hx with rfl | ⟨x', rfl⟩
      · simp at hxz
      · simp only [List.cons_append, List.cons.injEq] at hxz
        exact hf ⟨z, by rw [hz, ← hxz.1]; simp⟩
  obtain ⟨x, hx, hx'⟩ := fileName_eq f key
  obtain ⟨y, hy, hy'⟩ := fileName_eq g key'
  intro he
  rw [hx, hy] at he
  rcases List.append_eq_append_iff.1 he with ⟨z, hz1, hz2⟩ | ⟨z, hz1, hz2⟩
  · exact one f g x y hne hf hx' z hz1 hz2
  · exact one g f y x hne.symm hg hy' z hz1 hz2

/-- An object with a sparse matrix `x`, and one with an array `data`. -/
def withSparse : Val := .obj [("x", .sparse 5 1 2 3)]
def withArray : Val := .obj [("data", .array 5 7)]

/-- **C261** is false: saved as `m` and as `m.x`, both have a file `m.x.data.npy`, with different contents. -/
theorem C261_false :
    Dict.get? (smartSave (fun _ => true) ⟨0, []⟩ none withSparse ⟨[], 0⟩).1.files ["x", "data"] = some (.npy 1) ∧
    Dict.get? (smartSave (fun _ => true) ⟨0, []⟩ none withArray ⟨[], 0⟩).1.files ["data"] = some (.npyArray 5 7) ∧
    fileName "m".toList ["x", "data"] = "m.x.data.npy".toList ∧ fileName "m.x".toList ["data"] = "m.x.data.npy".toList := by
  refine ⟨rfl, rfl, by decide, by decide⟩

/-- Two names as usual. -/
example : ("space1".toList : List Char) ≠ "space10".toList ∧ ¬ ("space1".toList ++ ['.']) <+: "space10".toList ∧
    ¬ ("space10".toList ++ ['.']) <+: "space1".toList ∧ fileName "space1.gz".toList ["x"] = "space1.gz.x.npz".toList := by decide

example : NoDot "x" ∧ NoDot "data" := ⟨by unfold NoDot; decide, by unfold NoDot; decide⟩

/-- The object of C162, with an object inside. -/
example : Tidy (.obj nested) ∧ (∀ q w, obs (.obj nested) q = some w → ∀ k ∈ q, NoDot k) ∧
    (smartSave (fun _ => true) ⟨5, ["t"]⟩ Option.none (.obj nested) ⟨[], 0⟩).2.2 = true := by
  refine ⟨by simp [nested, Tidy, TidyL, Dict.keys, isBook], ?_, by decide⟩
  have leaf : ∀ (v : Val) (q : List String) (w : Leaf), (∀ a, v ≠ .obj a) → obs v q = some w → q = [] := by
    intro v q w hv h
    cases q with
    | nil => rfl
    | cons k q => cases v <;> simp_all [obs]
  have step : ∀ (attrs : Attrs), (∀ p ∈ attrs, NoDot p.1 ∧ ∀ q w, obs p.2 q = some w → ∀ k ∈ q, NoDot k) →
      ∀ q w, obs (.obj attrs) q = some w → ∀ k ∈ q, NoDot k := by
    intro attrs ha q w h k hk
    cases q with
    | nil => simp at hk
    | cons k' q =>
      rw [obs_obj] at h
      split at h
      · exact (nomatch h)
      · unfold below at h
        cases hg : Dict.get? attrs k' with
        | none => rw [hg] at h; exact (nomatch h)
        | some v =>
          rw [hg] at h
          obtain ⟨h1, h2⟩ := ha (k', v) (Dict.mem_of_get? hg)
          rcases List.mem_cons.1 hk with rfl | hk
          · exact h1
          · exact h2 q w h k hk
  have flat : ∀ (v : Val), (∀ a, v ≠ .obj a) → ∀ q w, obs v q = some w → ∀ k ∈ q, NoDot k := by
    intro v hv q w h k hk
    rw [leaf v q w hv h] at hk
    simp at hk
  refine step nested ?_
  intro p hp
  simp only [nested, List.mem_cons, List.not_mem_nil, or_false] at hp
  rcases hp with rfl | rfl | rfl
  · refine ⟨by unfold NoDot; decide, step _ ?_⟩
    intro p hp
    simp only [List.mem_cons, List.not_mem_nil, or_false] at hp
    rcases hp with rfl | rfl
    · exact ⟨by unfold NoDot; decide, flat _ (by simp)⟩
    · exact ⟨by unfold NoDot; decide, flat _ (by simp)⟩
  · exact ⟨by unfold NoDot; decide, flat _ (by simp)⟩
  · exact ⟨by unfold NoDot; decide, flat _ (by simp)⟩

end Verif.Setup.Save
