import Verif.Dep.Manager

/-! # Property theorems C159-C161 (path templates and the older manager) -/

set_option linter.unusedSectionVars false

namespace Verif.Dep.Manager
open Verif.Py Verif.Vocab.Plain Verif.Items

/-! ### Lemmas -/

theorem split_length (c : Char) (s : Str) : (split c s).length = s.count c + 1 := by
  induction s with
  | nil => rfl
  | cons x xs ih =>
    rw [split]
    split
    · rename_i hx
      subst hx
      simp [ih]
    · rename_i hx
      cases hs : split c xs with
      | nil => exact absurd hs (split_ne_nil c xs)
      | cons p ps =>
        rw [hs] at ih
        simp only [List.length_cons] at ih ⊢
        rw [List.count_cons_of_ne (fun e => hx e), ih]

/-- What is left of the fields: all, or all but the last. -/
def used (l : List Str) : List Str := if l.length % 2 = 1 then l else l.dropLast

theorem evens_head (a : Str) (l : List Str) : (evens (a :: l))[0]? = some a := by
  cases l <;> rfl

theorem pieces_shift (a b : Str) (ns es : List Str) (i n : Nat) :
    pieces ⟨a :: ns, b :: es⟩ (i + 1) n = pieces ⟨ns, es⟩ i n := by
  induction n generalizing i with
  | zero => rfl
  | succ n ih =>
    simp only [pieces, List.getElem?_cons_succ]
    rw [ih (i + 1)]

theorem pieces_used (a : Str) (l : List Str) :
    ∃ r, pieces ⟨evens (a :: l), inner (a :: l)⟩ 0 (inner (a :: l)).length = .ok r ∧ a :: r = used (a :: l) := by
  induction h : l.length using Nat.strong_induction_on generalizing a l with
  | _ n ih =>
    match l with
    | [] => exact ⟨[], rfl, by simp [used]⟩
    | [b] => exact ⟨[], rfl, by simp [used]⟩
    | b :: c :: l' =>
      obtain ⟨r, hr, he⟩ := ih l'.length (by simp at h; omega) c l' rfl
      have key : ∀ r, pieces ⟨evens (c :: l'), inner (c :: l')⟩ 0 (inner (c :: l')).length = .ok r →
          pieces ⟨evens (a :: b :: c :: l'), inner (a :: b :: c :: l')⟩ 0 (inner (a :: b :: c :: l')).length = .ok (b :: c :: r) := by
        intro r hr
        have e1 : evens (a :: b :: c :: l') = a :: evens (c :: l') := rfl
        have e2 : inner (a :: b :: c :: l') = b :: inner (c :: l') := rfl
        rw [e1, e2, List.length_cons, pieces]
        simp only [List.getElem?_cons_zero, Nat.zero_add, List.getElem?_cons_succ, evens_head]
        rw [pieces_shift a b _ _ 0, hr]
        rfl
      have hu : used (a :: b :: c :: l') = a :: b :: used (c :: l') := by
        unfold used
        have : (a :: b :: c :: l').length % 2 = (c :: l').length % 2 := by simp only [List.length_cons]; omega
        rw [this]
        split <;> rfl
      exact ⟨b :: c :: r, key r hr, by rw [hu, ← he]⟩

theorem show_used (line : Str) : show_ (readLine line) = .ok (join ':' (used (split ':' (strip line)))) := by
  unfold readLine
  simp only
  cases hs : split ':' (strip line) with
  | nil => exact absurd hs (split_ne_nil _ _)
  | cons a l =>
    unfold show_
    simp only [evens_head]
    obtain ⟨r, hr, he⟩ := pieces_used a l
    rw [hr, ← he]
    rfl

/-! ## C159 -/

/-- **C159**, true part: a line with an even number of colons (nodes and relations alternate, a node at both ends) gives a
template that is printed as the line, without the white space around it. -/
theorem C159_partial (line : Str) (h : (strip line).count ':' % 2 = 0) : show_ (readLine line) = .ok (strip line) := by
  rw [show_used]
  unfold used
  rw [if_pos (by rw [split_length]; omega), join_split]

/-- **C159**, the other lines: the last field is lost without an exception. -/
theorem C159_lost {line l last : Str} (h : strip line = l ++ ':' :: last) (hl : ':' ∉ last) (ho : l.count ':' % 2 = 0) :
    show_ (readLine line) = .ok l := by
  rw [show_used]
  have hs : split ':' (strip line) = split ':' l ++ [last] := by
    rw [h]
    clear h ho
    induction l with
    | nil => simp [split, split_noc ':' last hl]
    | cons x xs ih =>
      rw [List.cons_append]
      conv_lhs => rw [split]
      conv_rhs => rw [split]
      split
      · rw [ih]; rfl
      · rw [ih]
        cases he : split ':' xs with
        | nil => exact absurd he (split_ne_nil _ _)
        | cons p ps => rfl
  unfold used
  rw [hs, if_neg (by simp only [List.length_append, split_length, List.length_singleton]; omega), List.dropLast_concat, join_split]

/-- **C159 is false**: of `a:b` only `a` is printed. -/
theorem C159_false : ∃ line : Str, strip line = line ∧ show_ (readLine line) = .ok ['a'] ∧ line ≠ ['a'] :=
  ⟨['a', ':', 'b'], by decide, by decide, by decide⟩

/-- **C159**: a file gives one template per line; if features are given too, the file is not read. -/
theorem C159_file {φ : Type} (st : State φ) (ls : List Str) :
    (∃ st', readTemplate st (some ls) [] = .ok (st', .inl (ls.map readLine)) ∧ st'.templates = ls.map readLine ∧ st'.features = st.features) ∧
    (∀ fs : List φ, fs ≠ [] → ∃ st', readTemplate st (some ls) fs = .ok (st', .inr fs) ∧ st'.templates = st.templates ∧ st'.features = fs) ∧
    readTemplate st none [] = .error .valueError := by
  refine ⟨⟨_, rfl, rfl, rfl⟩, fun fs h => ⟨{ st with features := fs }, ?_, rfl, rfl⟩, rfl⟩
  unfold readTemplate
  rw [if_pos h]

example : (strip [' ', 'a', ':', 'r', ':', 'b', '\n']).count ':' % 2 = 0 ∧
    readLine [' ', 'a', ':', 'r', ':', 'b', '\n'] = ⟨[['a'], ['b']], [['r']]⟩ := by decide

/-! ## C160 -/

theorem single_fails {φ : Type} (fnames : List Str) (fs : List φ) : doJobSingle fnames fs = (fs, fnames.map (fun f => (f, .nameError))) := by
  induction fnames with
  | nil => rfl
  | cons f fnames ih =>
    unfold doJobSingle
    simp only [updateDepRel]
    rw [ih]
    rfl

/-- The claim: the features afterwards hold, beside what they held, the matches in every file.  `found` is what a correct search
of one file adds. -/
def C160_claim {φ : Type} (found : Str → List φ → List φ) (fnames : List Str) (features : List φ) (multicore : Bool) : Prop :=
  (buildDepRel fnames features multicore).features = fnames.foldl (fun fs f => found f fs) features

/-- **C160 is false**: whatever the files, nothing is found; the function called for each file (on one processor) and the method
called otherwise do not exist, and their exceptions are logged, not raised. -/
theorem C160_nothing {φ : Type} (fnames : List Str) (features : List φ) :
    (buildDepRel fnames features).features = features ∧ (buildDepRel fnames features).result = none ∧
    (buildDepRel fnames features).logged = [.attributeError] ∧
    (buildDepRel fnames features false).features = features ∧ (buildDepRel fnames features false).result = none ∧
    (buildDepRel fnames features false).logged = fnames.map (fun _ => .nameError) ∧ caller fnames features = features := by
  refine ⟨rfl, rfl, rfl, ?_, rfl, ?_, ?_⟩
  · unfold buildDepRel
    simp [single_fails]
  · unfold buildDepRel
    simp [single_fails, Function.comp_def]
  · unfold caller
    rw [single_fails]

/-- **C160**: the claim holds exactly where a correct search finds nothing. -/
theorem C160_partial {φ : Type} (found : Str → List φ → List φ) (fnames : List Str) (features : List φ) (multicore : Bool) :
    C160_claim found fnames features multicore ↔ fnames.foldl (fun fs f => found f fs) features = features := by
  unfold C160_claim
  have h := C160_nothing fnames features
  cases multicore
  · rw [h.2.2.2.1]; exact eq_comm
  · rw [h.1]; exact eq_comm

theorem C160_false : ∃ (found : Str → List Nat → List Nat) (fnames : List Str) (features : List Nat),
    ∀ multicore, ¬ C160_claim found fnames features multicore := by
  refine ⟨fun _ fs => fs.map (· + 1), [['a']], [0], fun multicore => ?_⟩
  rw [C160_partial]
  decide

/-! ## C161 -/

section
variable {α β : Type}

/-- Specification: the matches of feature `i` in a list of files, in order. -/
def nodesOf (i : Nat) (files : List (List (Feat α β))) : List α := files.flatMap (fun f => ((f[i]?).map Feat.nodes).getD [])
def edgesOf (i : Nat) (files : List (List (Feat α β))) : List β := files.flatMap (fun f => ((f[i]?).map Feat.edges).getD [])

theorem extendFrom_spec (xs fs : List (Feat α β)) (i : Nat) (h : i + xs.length ≤ fs.length) :
    ∃ gs : List (Feat α β), extendFrom i xs fs = (gs, none) ∧ gs.length = fs.length ∧ ∀ (k : Nat) (f : Feat α β), fs[k]? = some f →
      gs[k]? = some (if i ≤ k then (⟨f.nodes ++ ((xs[k - i]?).map Feat.nodes).getD [], f.edges ++ ((xs[k - i]?).map Feat.edges).getD []⟩ : Feat α β) else f) := by
  induction xs generalizing i fs with
  | nil =>
    refine ⟨fs, rfl, rfl, fun k f hf => ?_⟩
    rw [hf]
    split <;> simp
  | cons x xs ih =>
    simp only [List.length_cons] at h
    have hi : i < fs.length := by omega
    have hfi : fs[i]? = some fs[i] := List.getElem?_eq_getElem hi
    unfold extendFrom
    rw [hfi]
    simp only
    obtain ⟨gs, h1, h2, h3⟩ := ih (fs.set i ⟨fs[i].nodes ++ x.nodes, fs[i].edges ++ x.edges⟩) (i + 1) (by rw [List.length_set]; omega)
    refine ⟨gs, h1, by rw [h2]; simp, fun k f hf => ?_⟩
    by_cases hk : k = i
    · subst hk
      rw [hfi] at hf
      cases hf
      rw [h3 k _ (by rw [List.getElem?_set_self hi])]
      simp
    · rw [h3 k f (by rw [List.getElem?_set_ne (fun e => hk e.symm)]; exact hf)]
      by_cases hik : i ≤ k
      · rw [if_pos hik, if_pos (by omega)]
        have : k - i = (k - (i + 1)) + 1 := by omega
        rw [this, List.getElem?_cons_succ]
      · rw [if_neg hik, if_neg (by omega)]

theorem extendAll_spec (files : List (List (Feat α β))) (fs : List (Feat α β)) (h : ∀ f ∈ files, f.length ≤ fs.length) :
    ∃ gs : List (Feat α β), extendAll files fs = (gs, none) ∧ gs.length = fs.length ∧ ∀ (k : Nat) (f : Feat α β), fs[k]? = some f →
      gs[k]? = some ⟨f.nodes ++ nodesOf k files, f.edges ++ edgesOf k files⟩ := by
  induction files generalizing fs with
  | nil => exact ⟨fs, rfl, rfl, fun k f hf => by simp [nodesOf, edgesOf, hf]⟩
  | cons x files ih =>
    obtain ⟨g1, h1, h2, h3⟩ := extendFrom_spec x fs 0 (by have := h x (by simp); omega)
    obtain ⟨gs, k1, k2, k3⟩ := ih g1 (fun f hf => by rw [h2]; exact h f (by simp [hf]))
    unfold extendAll
    rw [h1]
    simp only
    refine ⟨gs, k1, k2.trans h2, fun k f hf => ?_⟩
    have := h3 k f hf
    simp only [Nat.zero_le, if_true, Nat.sub_zero] at this
    rw [k3 k _ this]
    simp [nodesOf, edgesOf, List.append_assoc]

/-- **C161**: if no result file has more features than the manager, every feature gets its matches of all result files, each once
and in order, the result files are removed and the other files stay; merging again changes nothing. -/
theorem C161_merge (dir : List (Str × List (Feat α β))) (fs : List (Feat α β))
    (h : ∀ p ∈ dir, hasSuper p.1 = false → p.2.length ≤ fs.length) :
    ∃ gs left, mergeResults dir fs = (gs, left, none) ∧ gs.length = fs.length ∧
      (∀ p, p ∈ left ↔ p ∈ dir ∧ hasSuper p.1 = true) ∧
      (∀ (k : Nat) (f : Feat α β), fs[k]? = some f → gs[k]? = some ⟨f.nodes ++ nodesOf k ((dir.filter (fun p => !hasSuper p.1)).map Prod.snd),
        f.edges ++ edgesOf k ((dir.filter (fun p => !hasSuper p.1)).map Prod.snd)⟩) ∧
      mergeResults left gs = (gs, left, none) := by
  obtain ⟨gs, h1, h2, h3⟩ := extendAll_spec ((dir.filter (fun p => !hasSuper p.1)).map Prod.snd) fs (by
    intro f hf
    obtain ⟨p, hp, rfl⟩ := List.mem_map.1 hf
    have := List.mem_filter.1 hp
    exact h p this.1 (by simpa using this.2))
  refine ⟨gs, dir.filter (fun p => hasSuper p.1), ?_, h2, ?_, h3, ?_⟩
  · unfold mergeResults loadAll
    simp only
    rw [h1]
  · intro p
    rw [List.mem_filter]
  · unfold mergeResults loadAll
    simp only
    have e1 : (dir.filter (fun p => hasSuper p.1)).filter (fun p => !hasSuper p.1) = [] := by
      rw [List.filter_filter]
      rw [List.filter_eq_nil_iff]
      intro p _
      simp
    have e2 : (dir.filter (fun p => hasSuper p.1)).filter (fun p => hasSuper p.1) = dir.filter (fun p => hasSuper p.1) := by
      rw [List.filter_filter]
      congr 1
      funext p
      simp
    rw [e1, e2]
    rfl

theorem extendFrom_error (xs fs : List (Feat α β)) (i : Nat) (h : fs.length < i + xs.length) (hi : i ≤ fs.length) :
    ∃ gs, extendFrom i xs fs = (gs, some .indexError) := by
  induction xs generalizing i fs with
  | nil => simp at h; omega
  | cons x xs ih =>
    unfold extendFrom
    by_cases hl : i < fs.length
    · rw [List.getElem?_eq_getElem hl]
      simp only
      exact ih _ (i + 1) (by simp at h ⊢; omega) (by simp; omega)
    · rw [List.getElem?_eq_none (by omega)]
      exact ⟨fs, rfl⟩

/-- **C161**, refusal: a result file with more features than the manager is an `IndexError`; the result files are gone by then. -/
theorem C161_refused (dir : List (Str × List (Feat α β))) (fs : List (Feat α β)) {p : Str × List (Feat α β)} (hp : p ∈ dir)
    (hs : hasSuper p.1 = false) (h : fs.length < p.2.length) :
    ∃ gs left, mergeResults dir fs = (gs, left, some .indexError) ∧ ∀ q ∈ left, hasSuper q.1 = true := by
  have key : ∀ (files : List (List (Feat α β))) (fs : List (Feat α β)) (x : List (Feat α β)), x ∈ files → fs.length < x.length →
      ∃ gs, extendAll files fs = (gs, some .indexError) := by
    intro files
    induction files with
    | nil => intro fs x hx; cases hx
    | cons y files ih =>
      intro fs x hx hl
      unfold extendAll
      by_cases hy : fs.length < y.length
      · obtain ⟨gs, hg⟩ := extendFrom_error y fs 0 (by omega) (by omega)
        rw [hg]
        exact ⟨gs, rfl⟩
      · obtain ⟨gs, h1, h2, _⟩ := extendFrom_spec y fs 0 (by omega)
        rw [h1]
        simp only
        rcases List.mem_cons.1 hx with rfl | hx
        · exact absurd hl hy
        · exact ih gs x hx (by omega)
  obtain ⟨gs, hg⟩ := key ((dir.filter (fun p => !hasSuper p.1)).map Prod.snd) fs p.2
    (List.mem_map.2 ⟨p, List.mem_filter.2 ⟨hp, by simp [hs]⟩, rfl⟩) h
  refine ⟨gs, dir.filter (fun p => hasSuper p.1), ?_, fun q hq => (List.mem_filter.1 hq).2⟩
  unfold mergeResults loadAll
  simp only
  rw [hg]

end

/-- Two result files beside the file of the parent. -/
def sampleDir : List (Str × List (Feat Nat Nat)) :=
  [("matches.sub.7".toList, [⟨[1], [2]⟩, ⟨[], []⟩]), ("path.template.super".toList, [⟨[9], [9]⟩]), ("matches.sub.8".toList, [⟨[3], [4]⟩, ⟨[5], [6]⟩])]

example : mergeResults sampleDir [⟨[0], [0]⟩, ⟨[], []⟩] =
    ([⟨[0, 1, 3], [0, 2, 4]⟩, ⟨[5], [6]⟩], [("path.template.super".toList, [⟨[9], [9]⟩])], none) ∧
    (∀ p ∈ sampleDir, hasSuper p.1 = false → p.2.length ≤ 2) := by decide +kernel

end Verif.Dep.Manager
