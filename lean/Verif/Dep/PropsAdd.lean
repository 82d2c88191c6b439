import Verif.Dep.PropsDepRel

/-!
# Claim C180: dependency counts of parts add up
-/

namespace Verif.Dep
open Verif.Py Verif.Matrix Verif.Engine
set_option linter.unusedSectionVars false

variable {rx : String → String → Bool} {istree : Graph → Bool} {f : LineFormat} {tok : Bool}

/-- One sentence and one macro. -/
def matchOne (rx : String → String → Bool) (istree : Graph → Bool) (f : LineFormat) (fid : Option String) (m : Macro)
    (sentence : List (Nat × String)) : Except Err Macro := do
  let g ← sentenceGraph f sentence
  if istree g then treeMatch rx (istree g) g fid m else .ok m

theorem mapM_forall2 {γ δ : Type} (g : γ → Except Err δ) (l : List γ) (r : List δ) :
    l.mapM g = .ok r ↔ List.Forall₂ (fun x y => g x = .ok y) l r := by
  induction l generalizing r with
  | nil => cases r <;> simp [pure, Except.pure]
  | cons x l ih =>
    rw [List.mapM_cons]
    cases hx : g x with
    | error e =>
      simp only [bind, Except.bind]
      constructor
      · intro h; cases h
      · intro h; cases h with | cons h _ => rw [hx] at h; cases h
    | ok y =>
      simp only [bind, Except.bind, pure, Except.pure]
      cases hl : l.mapM g with
      | error e =>
        simp only
        constructor
        · intro h; cases h
        · intro h
          cases h with
          | cons _ h => rw [(ih _).2 h] at hl; cases hl
      | ok ys =>
        simp only [Except.ok.injEq]
        constructor
        · rintro rfl; exact .cons hx ((ih ys).1 hl)
        · intro h
          cases h with
          | cons h1 h2 =>
            rw [hx] at h1; cases h1
            rw [(ih _).2 h2] at hl; cases hl; rfl

theorem matchSentence_forall2 (fid : Option String) (macros r : List Macro) (s : List (Nat × String)) :
    matchSentence rx istree f fid macros s = .ok r ↔
      (∃ g, sentenceGraph f s = .ok g) ∧ List.Forall₂ (fun m m' => matchOne rx istree f fid m s = .ok m') macros r := by
  unfold matchSentence matchOne
  cases hg : sentenceGraph f s with
  | error e =>
    simp only [bind, Except.bind]
    constructor
    · intro h; cases h
    · rintro ⟨⟨g, h⟩, -⟩; cases h
  | ok g =>
    simp only [bind, Except.bind]
    cases ht : istree g with
    | true =>
      simp only [if_true]
      rw [mapM_forall2]
      exact ⟨fun h => ⟨⟨g, rfl⟩, h⟩, fun h => h.2⟩
    | false =>
      simp only [Bool.false_eq_true, if_false, Except.ok.injEq]
      rw [List.forall₂_eq_eq_eq]
      exact ⟨fun h => ⟨⟨g, rfl⟩, h⟩, fun h => h.2⟩

theorem fold_forall2 (fid : Option String) (ss : List (List (Nat × String))) (macros r : List Macro) :
    ss.foldlM (matchSentence rx istree f fid) macros = .ok r ↔
      (∀ s ∈ ss, ∃ g, sentenceGraph f s = .ok g) ∧
      List.Forall₂ (fun m m' => ss.foldlM (matchOne rx istree f fid) m = .ok m') macros r := by
  induction ss generalizing macros with
  | nil =>
    simp only [List.foldlM_nil, pure, Except.pure, Except.ok.injEq, List.forall₂_eq_eq_eq]
    constructor
    · intro h
      refine ⟨?_, h⟩
      intro s hs
      cases hs
    · exact fun h => h.2
  | cons s ss ih =>
    rw [List.foldlM_cons]
    constructor
    · intro h
      cases h1 : matchSentence rx istree f fid macros s with
      | error e => rw [h1] at h; cases h
      | ok ms =>
        rw [h1] at h
        obtain ⟨g1, g2⟩ := (ih ms).1 h
        obtain ⟨k1, k2⟩ := (matchSentence_forall2 fid macros ms s).1 h1
        refine ⟨fun x hx => ?_, ?_⟩
        · rcases List.mem_cons.1 hx with rfl | hx
          · exact k1
          · exact g1 x hx
        · clear * - g2 k2
          induction k2 generalizing r with
          | nil => cases g2; exact .nil
          | cons h _ ih =>
            cases g2 with
            | cons h' t =>
              refine .cons ?_ (ih _ t)
              rw [List.foldlM_cons, h]
              exact h'
    · rintro ⟨h1, h2⟩
      have : ∃ ms, List.Forall₂ (fun m m' => matchOne rx istree f fid m s = .ok m') macros ms ∧
          List.Forall₂ (fun m m' => ss.foldlM (matchOne rx istree f fid) m = .ok m') ms r := by
        clear * - h2
        induction h2 with
        | nil => exact ⟨[], .nil, .nil⟩
        | @cons m m' _ _ h _ ih =>
          obtain ⟨ms, i1, i2⟩ := ih
          rw [List.foldlM_cons] at h
          cases hm : matchOne rx istree f fid m s with
          | error e => rw [hm] at h; cases h
          | ok x => rw [hm] at h; exact ⟨x :: ms, .cons hm i1, .cons h i2⟩
      obtain ⟨ms, k1, k2⟩ := this
      rw [(matchSentence_forall2 fid macros ms s).2 ⟨h1 s (by simp), k1⟩]
      exact (ih ms).2 ⟨fun x hx => h1 x (by simp [hx]), k2⟩

/-- What one macro finds in one file. -/
def foundOne (rx : String → String → Bool) (istree : Graph → Bool) (f : LineFormat) (tok : Bool) (targets : List String) (c : CorpusFile)
    (m : Macro) : List Match :=
  match (readSentence f c.lines).foldlM (matchOne rx istree f (fileId tok c)) { m with filter := some targets } with
  | .ok m' => m'.found
  | .error _ => []

/-- The job of a file ends without an exception. -/
def JobOk (rx : String → String → Bool) (istree : Graph → Bool) (f : LineFormat) (tok : Bool) (targets : List String) (macros : List Macro)
    (c : CorpusFile) : Prop :=
  ∃ r, depJob rx istree f (fileId tok c) targets macros c.lines = .ok r

theorem jobOk_iff (targets : List String) (macros : List Macro) (c : CorpusFile) :
    JobOk rx istree f tok targets macros c ↔ (∀ s ∈ readSentence f c.lines, ∃ g, sentenceGraph f s = .ok g) ∧
      ∀ m ∈ macros, ∃ m', (readSentence f c.lines).foldlM (matchOne rx istree f (fileId tok c)) { m with filter := some targets } = .ok m' := by
  unfold JobOk depJob
  constructor
  · rintro ⟨r, h⟩
    obtain ⟨h1, h2⟩ := (fold_forall2 _ _ _ _).1 h
    refine ⟨h1, fun m hm => ?_⟩
    rw [List.forall₂_map_left_iff] at h2
    clear * - h2 hm
    induction h2 with
    | nil => cases hm
    | cons h _ ih =>
      rcases List.mem_cons.1 hm with rfl | hm
      · exact ⟨_, h⟩
      · exact ih hm
  · rintro ⟨h1, h2⟩
    have : ∃ r, List.Forall₂ (fun m m' => (readSentence f c.lines).foldlM (matchOne rx istree f (fileId tok c)) m = .ok m')
        (macros.map (fun m => { m with filter := some targets })) r := by
      clear * - h2
      induction macros with
      | nil => exact ⟨[], .nil⟩
      | cons m ms ih =>
        obtain ⟨r, hr⟩ := ih (fun m hm => h2 m (by simp [hm]))
        obtain ⟨m', hm'⟩ := h2 m (by simp)
        exact ⟨m' :: r, .cons hm' hr⟩
    obtain ⟨r, hr⟩ := this
    exact ⟨r, (fold_forall2 _ _ _ _).2 ⟨h1, hr⟩⟩

theorem depFound_one {targets : List String} {macros : List Macro} {c : CorpusFile} (h : JobOk rx istree f tok targets macros c) {i : Nat} {m : Macro}
    (hi : macros[i]? = some m) : depFound rx istree f tok targets macros c i = foundOne rx istree f tok targets c m := by
  obtain ⟨r, hr⟩ := h
  unfold depFound foundOne
  rw [hr]
  unfold depJob at hr
  have h2 := ((fold_forall2 _ _ _ _).1 hr).2
  rw [List.forall₂_map_left_iff] at h2
  clear hr
  induction h2 generalizing i with
  | nil => simp at hi
  | cons h _ ih =>
    cases i with
    | zero =>
      simp only [List.getElem?_cons_zero, Option.some.injEq] at hi
      subst hi
      rw [h]
      rfl
    | succ i =>
      simp only [List.getElem?_cons_succ] at hi ⊢
      exact ih hi

theorem matchMatrix_entry {grp : String → String → Nat → Option String} {ms : List Macro} {mtx : Mtx String Int}
    (h : matchMatrix grp tok ms = .ok mtx) (t ft : String) :
    entry mtx t ft = ((ms.map (fun m => m.found.countP (hasStrings grp tok m t ft))).sum : Nat) := by
  have hok : ∃ ps, matchPairs grp tok ms = .ok ps := by
    cases hp : matchPairs grp tok ms with
    | ok ps => exact ⟨ps, rfl⟩
    | error e => unfold matchMatrix at h; rw [hp] at h; cases h
  have hne : ∃ m ∈ ms, m.found ≠ [] := by
    by_contra hc
    have : ∀ m ∈ ms, m.found = [] := fun m hm => by
      by_contra hm'
      exact hc ⟨m, hm, hm'⟩
    rw [C67_false_none grp tok ms this] at h
    cases h
  obtain ⟨mtx', h1, -, -, -, -, -, h2⟩ := C67_partial grp tok ms hok hne
  rw [h] at h1
  cases h1
  exact h2 t ft

theorem sum_comm_lists {α β : Type} (g : α → β → Nat) (as : List α) (bs : List β) :
    (as.map (fun a => (bs.map (g a)).sum)).sum = (bs.map (fun b => (as.map (fun a => g a b)).sum)).sum := by
  induction as with
  | nil => simp
  | cons a as ih =>
    simp only [List.map_cons, List.sum_cons, ih]
    clear ih
    induction bs with
    | nil => rfl
    | cons b bs ihb => simp only [List.map_cons, List.sum_cons]; omega

/-- The count of `t` and `ft` in the matches of all macros in all files. -/
def total (rx : String → String → Bool) (istree : Graph → Bool) (f : LineFormat) (tok : Bool) (grp : String → String → Nat → Option String)
    (targets : List String) (files : List CorpusFile) (macros : List Macro) (t ft : String) : Nat :=
  (macros.map (fun m => (files.map (fun c => (foundOne rx istree f tok targets c m).countP (hasStrings grp tok m t ft))).sum)).sum

/-- The entries of the matrix of `build_dependency` on a fresh handler. -/
theorem build_entry {grp : String → String → Nat → Option String} {targets : List String} {files : List CorpusFile} {macros : List Macro}
    (hj : ∀ c ∈ files, JobOk rx istree f tok targets macros c) {W : Nat} {acc : Nat → List Match}
    (hcall : DepCall (depFound rx istree f tok targets macros) W files (fun _ => []) acc) {mtx : Mtx String Int}
    (hm : matchMatrix grp tok (withFound macros acc) = .ok mtx) (t ft : String) :
    entry mtx t ft = (total rx istree f tok grp targets files macros t ft : Nat) := by
  rw [matchMatrix_entry hm]
  unfold withFound total
  rw [List.map_map]
  have hp := (C06_first_call (κ := String) _ W files acc hcall).1
  have e : ((fun m : Macro => m.found.countP (hasStrings grp tok m t ft)) ∘ (fun e : Macro × Nat => { e.1 with found := acc e.2 })) =
      fun e : Macro × Nat => (acc e.2).countP (hasStrings grp tok e.1 t ft) := by
    funext e
    show (acc e.2).countP (hasStrings grp tok { e.1 with found := acc e.2 } t ft) = _
    rw [hasStrings_found]
  rw [e]
  have e2 : macros.zipIdx.map (fun e : Macro × Nat => (acc e.2).countP (hasStrings grp tok e.1 t ft)) =
      macros.zipIdx.map ((fun m => (files.map (fun c => (foundOne rx istree f tok targets c m).countP (hasStrings grp tok m t ft))).sum) ∘ Prod.fst) := by
    refine List.map_congr_left (fun e he => ?_)
    rw [(hp e.2).countP_eq, List.countP_flatMap]
    show _ = (files.map (fun c => (foundOne rx istree f tok targets c e.1).countP (hasStrings grp tok e.1 t ft))).sum
    congr 1
    refine List.map_congr_left (fun c hc => ?_)
    have hi : macros[e.2]? = some e.1 := by
      obtain ⟨_, h, he'⟩ := List.mem_zipIdx he
      rw [List.getElem?_eq_getElem (by omega)]
      simp only [Nat.sub_zero] at he'
      rw [he']
    show (depFound rx istree f tok targets macros c e.2).countP _ = _
    rw [depFound_one (hj c hc) hi]
  rw [e2, ← List.map_map, List.zipIdx_map_fst]

/-- **C180, files.** However the files of a corpus are divided and whatever the number of workers and the schedule of each call, the
entries of the matrix of the whole are the sums of those of the parts.  Each of the three handlers is fresh; no file raises an
exception.  Missing from the full claim: a part without any match has no matrix, see `C180_false` and `C180_empty`. -/
theorem C180_files_partial {grp : String → String → Nat → Option String} {targets : List String} {macros : List Macro} {files files1 files2 : List CorpusFile}
    (hdiv : files.Perm (files1 ++ files2)) (hj : ∀ c ∈ files, ∃ r, depJob rx istree f (fileId tok c) targets macros c.lines = .ok r)
    {W W1 W2 : Nat} {acc acc1 acc2 : Nat → List Match}
    (hcall : DepCall (depFound rx istree f tok targets macros) W files (fun _ => []) acc)
    (hcall1 : DepCall (depFound rx istree f tok targets macros) W1 files1 (fun _ => []) acc1)
    (hcall2 : DepCall (depFound rx istree f tok targets macros) W2 files2 (fun _ => []) acc2) {m m1 m2 : Mtx String Int}
    (hm : matchMatrix grp tok (withFound macros acc) = .ok m) (hm1 : matchMatrix grp tok (withFound macros acc1) = .ok m1)
    (hm2 : matchMatrix grp tok (withFound macros acc2) = .ok m2) (t ft : String) :
    entry m t ft = entry m1 t ft + entry m2 t ft := by
  have hj1 : ∀ c ∈ files1, JobOk rx istree f tok targets macros c := fun c hc => hj c (hdiv.mem_iff.2 (by simp [hc]))
  have hj2 : ∀ c ∈ files2, JobOk rx istree f tok targets macros c := fun c hc => hj c (hdiv.mem_iff.2 (by simp [hc]))
  rw [build_entry hj hcall hm, build_entry hj1 hcall1 hm1, build_entry hj2 hcall2 hm2, ← Nat.cast_add]
  congr 1
  unfold total
  rw [← List.sum_map_add]
  congr 1
  refine List.map_congr_left (fun x _ => ?_)
  rw [(hdiv.map _).sum_eq, List.map_append, List.sum_append]

/-- **C180, patterns.** The matrix of two lists of patterns together is the sum of the matrices of the lists. -/
theorem C180_patterns_partial {grp : String → String → Nat → Option String} {targets : List String} {macros1 macros2 : List Macro} {files : List CorpusFile}
    (hj : ∀ c ∈ files, ∃ r, depJob rx istree f (fileId tok c) targets (macros1 ++ macros2) c.lines = .ok r)
    {W W1 W2 : Nat} {acc acc1 acc2 : Nat → List Match}
    (hcall : DepCall (depFound rx istree f tok targets (macros1 ++ macros2)) W files (fun _ => []) acc)
    (hcall1 : DepCall (depFound rx istree f tok targets macros1) W1 files (fun _ => []) acc1)
    (hcall2 : DepCall (depFound rx istree f tok targets macros2) W2 files (fun _ => []) acc2) {m m1 m2 : Mtx String Int}
    (hm : matchMatrix grp tok (withFound (macros1 ++ macros2) acc) = .ok m) (hm1 : matchMatrix grp tok (withFound macros1 acc1) = .ok m1)
    (hm2 : matchMatrix grp tok (withFound macros2 acc2) = .ok m2) (t ft : String) :
    entry m t ft = entry m1 t ft + entry m2 t ft := by
  have hj1 : ∀ c ∈ files, JobOk rx istree f tok targets macros1 c := fun c hc => by
    obtain ⟨h1, h2⟩ := (jobOk_iff (tok := tok) targets (macros1 ++ macros2) c).1 (hj c hc)
    exact (jobOk_iff _ _ _).2 ⟨h1, fun x hx => h2 x (by simp [hx])⟩
  have hj2 : ∀ c ∈ files, JobOk rx istree f tok targets macros2 c := fun c hc => by
    obtain ⟨h1, h2⟩ := (jobOk_iff (tok := tok) targets (macros1 ++ macros2) c).1 (hj c hc)
    exact (jobOk_iff _ _ _).2 ⟨h1, fun x hx => h2 x (by simp [hx])⟩
  rw [build_entry hj hcall hm, build_entry hj1 hcall1 hm1, build_entry hj2 hcall2 hm2, ← Nat.cast_add]
  congr 1
  unfold total
  rw [List.map_append, List.sum_append]

/-! ### Targets -/

/-- One for a match that satisfies `p`. -/
def cnt (p : Match → Bool) : Option Match → Nat
  | none => 0
  | some x => if p x then 1 else 0

/-- The filter of `m`, split in two. -/
theorem addOne_split {T T1 T2 : List String} (hT : ∀ k, k ∈ T ↔ k ∈ T1 ∨ k ∈ T2) (hd : ∀ k, k ∈ T1 → k ∉ T2) (s : Graph) (fid : Option String) (m : Macro)
    (F F1 F2 : List Match) (d : Dict Nat Nat) {x : Option Match} (h : addOne s fid { m with filter := some T, found := F } d = .ok x) :
    ∃ x1 x2, addOne s fid { m with filter := some T1, found := F1 } d = .ok x1 ∧ addOne s fid { m with filter := some T2, found := F2 } d = .ok x2 ∧
      ∀ p, cnt p x = cnt p x1 + cnt p x2 := by
  unfold addOne at h ⊢
  cases hn : List.mapM (nodeAttrs s) d with
  | error e => rw [hn] at h; cases h
  | ok nodes =>
    rw [hn] at h
    simp only [bind, Except.bind] at h ⊢
    unfold passes at h ⊢
    simp only [bind, Except.bind] at h ⊢
    have hk : ∀ (l : List String) (G : List Match), filterKey { m with filter := some l, found := G } nodes = filterKey m nodes := fun _ _ => rfl
    rw [hk] at h ⊢
    rw [hk]
    cases hf : filterKey m nodes with
    | error e => rw [hf] at h; cases h
    | ok k =>
      rw [hf] at h
      simp only [decide_eq_true_eq] at h ⊢
      by_cases h1 : k ∈ T1
      · have h2 := hd k h1
        rw [if_pos ((hT k).2 (.inl h1))] at h
        rw [if_pos h1, if_neg h2]
        exact ⟨x, none, h, rfl, fun p => rfl⟩
      · by_cases h2 : k ∈ T2
        · rw [if_pos ((hT k).2 (.inr h2))] at h
          rw [if_neg h1, if_pos h2]
          exact ⟨none, x, rfl, h, fun p => (Nat.zero_add _).symm⟩
        · rw [if_neg (fun hk => ((hT k).1 hk).elim h1 h2)] at h
          rw [if_neg h1, if_neg h2]
          cases h
          exact ⟨none, none, rfl, rfl, fun p => rfl⟩

theorem countP_filterMap_id (p : Match → Bool) (l : List (Option Match)) : (l.filterMap id).countP p = (l.map (cnt p)).sum := by
  induction l with
  | nil => rfl
  | cons x l ih =>
    cases x with
    | none =>
      rw [List.map_cons, List.sum_cons, ← ih]
      exact (Nat.zero_add _).symm
    | some x =>
      have e : (some x :: l).filterMap id = x :: l.filterMap id := rfl
      rw [e, List.countP_cons, ih, List.map_cons, List.sum_cons]
      simp only [cnt]
      omega

/-- `a` has found what `a1` and `a2` have, and differs from them in nothing but its filter. -/
def Split (T T1 T2 : List String) (m a a1 a2 : Macro) : Prop :=
  ∃ F F1 F2, a = { m with filter := some T, found := F } ∧ a1 = { m with filter := some T1, found := F1 } ∧
    a2 = { m with filter := some T2, found := F2 } ∧ ∀ p : Match → Bool, F.countP p = F1.countP p + F2.countP p

theorem treeMatch_split {T T1 T2 : List String} (hT : ∀ k, k ∈ T ↔ k ∈ T1 ∨ k ∈ T2) (hd : ∀ k, k ∈ T1 → k ∉ T2) {b : Bool} {s : Graph} {fid : Option String}
    {m a a1 a2 a' : Macro} (h : Split T T1 T2 m a a1 a2) (ha : treeMatch rx b s fid a = .ok a') :
    ∃ a1' a2', treeMatch rx b s fid a1 = .ok a1' ∧ treeMatch rx b s fid a2 = .ok a2' ∧ Split T T1 T2 m a' a1' a2' := by
  obtain ⟨F, F1, F2, rfl, rfl, rfl, hF⟩ := h
  unfold treeMatch at ha ⊢
  cases b with
  | false =>
    simp only [Bool.false_eq_true, if_false, Except.ok.injEq] at ha ⊢
    exact ⟨_, _, rfl, rfl, F, F1, F2, ha.symm, rfl, rfl, hF⟩
  | true =>
    simp only [if_true, bind, Except.bind] at ha ⊢
    cases ht : treeMaps rx s m.graph m.depth with
    | error e => rw [ht] at ha; cases ha
    | ok maps =>
      rw [ht] at ha
      simp only at ha ⊢
      cases hx : maps.mapM (addOne s fid { m with filter := some T, found := F }) with
      | error e => rw [hx] at ha; cases ha
      | ok xs =>
        rw [hx] at ha
        simp only [Except.ok.injEq] at ha
        have : ∃ xs1 xs2, maps.mapM (addOne s fid { m with filter := some T1, found := F1 }) = .ok xs1 ∧
            maps.mapM (addOne s fid { m with filter := some T2, found := F2 }) = .ok xs2 ∧
            ∀ p, (xs.map (cnt p)).sum = (xs1.map (cnt p)).sum + (xs2.map (cnt p)).sum := by
          rw [mapM_forall2] at hx
          simp only [mapM_forall2]
          clear ha ht
          induction hx with
          | nil => exact ⟨[], [], .nil, .nil, fun _ => rfl⟩
          | cons h _ ih =>
            obtain ⟨xs1, xs2, i1, i2, i3⟩ := ih
            obtain ⟨x1, x2, j1, j2, j3⟩ := addOne_split hT hd s fid m F F1 F2 _ h
            refine ⟨x1 :: xs1, x2 :: xs2, .cons j1 i1, .cons j2 i2, fun p => ?_⟩
            simp only [List.map_cons, List.sum_cons, i3 p, j3 p]
            omega
        obtain ⟨xs1, xs2, h1, h2, h3⟩ := this
        rw [h1, h2]
        refine ⟨_, _, rfl, rfl, _, _, _, ha.symm, rfl, rfl, fun p => ?_⟩
        simp only [List.countP_append, countP_filterMap_id, hF p, h3 p]
        omega

theorem matchOne_split {T T1 T2 : List String} (hT : ∀ k, k ∈ T ↔ k ∈ T1 ∨ k ∈ T2) (hd : ∀ k, k ∈ T1 → k ∉ T2) {fid : Option String}
    {m a a1 a2 a' : Macro} (ss : List (List (Nat × String))) (h : Split T T1 T2 m a a1 a2)
    (ha : ss.foldlM (matchOne rx istree f fid) a = .ok a') :
    ∃ a1' a2', ss.foldlM (matchOne rx istree f fid) a1 = .ok a1' ∧ ss.foldlM (matchOne rx istree f fid) a2 = .ok a2' ∧ Split T T1 T2 m a' a1' a2' := by
  induction ss generalizing a a1 a2 with
  | nil =>
    simp only [List.foldlM_nil, pure, Except.pure, Except.ok.injEq] at ha ⊢
    subst ha
    exact ⟨_, _, rfl, rfl, h⟩
  | cons s ss ih =>
    rw [List.foldlM_cons] at ha
    simp only [List.foldlM_cons]
    cases hg : sentenceGraph f s with
    | error e =>
      unfold matchOne at ha
      rw [hg] at ha
      cases ha
    | ok g =>
      have key : ∃ b b1 b2, matchOne rx istree f fid a s = .ok b ∧ matchOne rx istree f fid a1 s = .ok b1 ∧ matchOne rx istree f fid a2 s = .ok b2 ∧
          Split T T1 T2 m b b1 b2 := by
        cases hb : matchOne rx istree f fid a s with
        | error e => rw [hb] at ha; cases ha
        | ok b =>
          unfold matchOne at hb ⊢
          rw [hg] at hb
          simp only [hg, bind, Except.bind] at hb ⊢
          cases ht : istree g with
          | true =>
            rw [ht] at hb
            simp only [if_true] at hb ⊢
            obtain ⟨b1, b2, h1, h2, h3⟩ := treeMatch_split hT hd h hb
            exact ⟨b, b1, b2, rfl, h1, h2, h3⟩
          | false =>
            rw [ht] at hb
            simp only [Bool.false_eq_true, if_false, Except.ok.injEq] at hb ⊢
            subst hb
            exact ⟨_, _, _, rfl, rfl, rfl, h⟩
      obtain ⟨b, b1, b2, h0, h1, h2, h3⟩ := key
      rw [h0] at ha
      rw [h1, h2]
      exact ih h3 ha

/-- **C180, targets.** If the target words are divided in two lists without a common word, the entries of the matrix for all targets are
the sums of the entries of the two matrices; so the counts of a target word do not depend on the other words asked for. -/
theorem C180_targets_partial {grp : String → String → Nat → Option String} {T T1 T2 : List String} {macros : List Macro} {files : List CorpusFile}
    (hT : ∀ k, k ∈ T ↔ k ∈ T1 ∨ k ∈ T2) (hd : ∀ k, k ∈ T1 → k ∉ T2) (h0 : ∀ x ∈ macros, x.found = [])
    (hj : ∀ c ∈ files, ∃ r, depJob rx istree f (fileId tok c) T macros c.lines = .ok r)
    {W W1 W2 : Nat} {acc acc1 acc2 : Nat → List Match}
    (hcall : DepCall (depFound rx istree f tok T macros) W files (fun _ => []) acc)
    (hcall1 : DepCall (depFound rx istree f tok T1 macros) W1 files (fun _ => []) acc1)
    (hcall2 : DepCall (depFound rx istree f tok T2 macros) W2 files (fun _ => []) acc2) {m m1 m2 : Mtx String Int}
    (hm : matchMatrix grp tok (withFound macros acc) = .ok m) (hm1 : matchMatrix grp tok (withFound macros acc1) = .ok m1)
    (hm2 : matchMatrix grp tok (withFound macros acc2) = .ok m2) (t ft : String) :
    entry m t ft = entry m1 t ft + entry m2 t ft := by
  have key : ∀ c ∈ files, ∀ x ∈ macros, ∃ a a1 a2,
      (readSentence f c.lines).foldlM (matchOne rx istree f (fileId tok c)) { x with filter := some T } = .ok a ∧
      (readSentence f c.lines).foldlM (matchOne rx istree f (fileId tok c)) { x with filter := some T1 } = .ok a1 ∧
      (readSentence f c.lines).foldlM (matchOne rx istree f (fileId tok c)) { x with filter := some T2 } = .ok a2 ∧
      Split T T1 T2 x a a1 a2 := by
    intro c hc x hx
    obtain ⟨_, h2⟩ := (jobOk_iff (tok := tok) T macros c).1 (hj c hc)
    obtain ⟨a, ha⟩ := h2 x hx
    have hs : Split T T1 T2 x { x with filter := some T } { x with filter := some T1 } { x with filter := some T2 } :=
      ⟨x.found, x.found, x.found, rfl, rfl, rfl, fun p => by rw [h0 x hx]; rfl⟩
    obtain ⟨a1, a2, k1, k2, k3⟩ := matchOne_split hT hd _ hs ha
    exact ⟨a, a1, a2, ha, k1, k2, k3⟩
  have hj1 : ∀ c ∈ files, JobOk rx istree f tok T1 macros c := fun c hc => by
    obtain ⟨h1, _⟩ := (jobOk_iff (tok := tok) T macros c).1 (hj c hc)
    exact (jobOk_iff _ _ _).2 ⟨h1, fun x hx => by obtain ⟨_, a1, _, _, h, _⟩ := key c hc x hx; exact ⟨a1, h⟩⟩
  have hj2 : ∀ c ∈ files, JobOk rx istree f tok T2 macros c := fun c hc => by
    obtain ⟨h1, _⟩ := (jobOk_iff (tok := tok) T macros c).1 (hj c hc)
    exact (jobOk_iff _ _ _).2 ⟨h1, fun x hx => by obtain ⟨_, _, a2, _, _, h, _⟩ := key c hc x hx; exact ⟨a2, h⟩⟩
  rw [build_entry hj hcall hm, build_entry hj1 hcall1 hm1, build_entry hj2 hcall2 hm2, ← Nat.cast_add]
  congr 1
  unfold total
  rw [← List.sum_map_add]
  congr 1
  refine List.map_congr_left (fun x hx => ?_)
  rw [← List.sum_map_add]
  congr 1
  refine List.map_congr_left (fun c hc => ?_)
  obtain ⟨a, a1, a2, e, e1, e2, F, F1, F2, rfl, rfl, rfl, hF⟩ := key c hc x hx
  unfold foundOne
  rw [e, e1, e2]
  exact hF _

/-- **C180, parts without matches** have no matrix; leaving them out changes nothing. -/
theorem C180_empty {grp : String → String → Nat → Option String} {targets : List String} {macros : List Macro} {files files1 files2 : List CorpusFile}
    (hdiv : files.Perm (files1 ++ files2)) (hj : ∀ c ∈ files, ∃ r, depJob rx istree f (fileId tok c) targets macros c.lines = .ok r)
    {W W1 W2 : Nat} {acc acc1 acc2 : Nat → List Match}
    (hcall : DepCall (depFound rx istree f tok targets macros) W files (fun _ => []) acc)
    (hcall1 : DepCall (depFound rx istree f tok targets macros) W1 files1 (fun _ => []) acc1)
    (hcall2 : DepCall (depFound rx istree f tok targets macros) W2 files2 (fun _ => []) acc2)
    (hempty : ∀ i, acc2 i = []) :
    matchMatrix grp tok (withFound macros acc2) = .error .valueError ∧
    ∀ m m1, matchMatrix grp tok (withFound macros acc) = .ok m → matchMatrix grp tok (withFound macros acc1) = .ok m1 →
      ∀ t ft, entry m t ft = entry m1 t ft := by
  have hnone : ∀ x ∈ withFound macros acc2, x.found = [] := by
    intro x hx
    obtain ⟨e, _, rfl⟩ := List.mem_map.1 hx
    exact hempty e.2
  refine ⟨C67_false_none grp tok _ hnone, fun m m1 hm hm1 t ft => ?_⟩
  have hj1 : ∀ c ∈ files1, JobOk rx istree f tok targets macros c := fun c hc => hj c (hdiv.mem_iff.2 (by simp [hc]))
  have hj2 : ∀ c ∈ files2, JobOk rx istree f tok targets macros c := fun c hc => hj c (hdiv.mem_iff.2 (by simp [hc]))
  rw [build_entry hj hcall hm, build_entry hj1 hcall1 hm1]
  congr 1
  unfold total
  congr 1
  refine List.map_congr_left (fun x hx => ?_)
  rw [(hdiv.map _).sum_eq, List.map_append, List.sum_append]
  have hz : (files2.map (fun c => (foundOne rx istree f tok targets c x).countP (hasStrings grp tok x t ft))).sum = 0 := by
    obtain ⟨i, hi⟩ := List.mem_iff_getElem?.1 hx
    have hp := (C06_first_call (κ := String) _ W2 files2 acc2 hcall2).1 i
    rw [hempty i] at hp
    have hnil : files2.flatMap (fun c => depFound rx istree f tok targets macros c i) = [] := List.nil_perm.1 hp
    rw [List.flatMap_eq_nil_iff] at hnil
    have : files2.map (fun c => (foundOne rx istree f tok targets c x).countP (hasStrings grp tok x t ft)) = files2.map (fun _ => 0) := by
      refine List.map_congr_left (fun c hc => ?_)
      rw [← depFound_one (hj2 c hc) hi, hnil c hc]
      rfl
    rw [this]
    simp
  rw [hz, Nat.add_zero]

/-- The sample corpus gives a matrix for the target `apple/N`. -/
theorem sample_matrix : ∃ mtx, matchMatrix grp0 false (withFound [verbMacro none]
    (fun i => depFound rx0 (fun _ => true) sampleFmt false ["apple/N"] [verbMacro none] sampleFile i)) = .ok mtx := by
  obtain ⟨_, mtx, _, h2, _, _⟩ := C70_partial (rx := rx0) (istree := fun _ => true) grp0 sample_settings [sampleFile] (fun _ => [sampleWords])
    (by intro c h; rcases List.mem_singleton.1 h with rfl; exact sample_read)
    (by intro c _ ws h; rcases List.mem_singleton.1 h with rfl; exact sample_sentence) ["apple/N"] [verbMacro none]
    (by intro m h; rcases List.mem_singleton.1 h with rfl; exact sample_macro none)
    (by intro m h; rcases List.mem_singleton.1 h with rfl; rfl) 1 _ (sample_call _)
    (by intro m h; rcases List.mem_singleton.1 h with rfl; exact sample_readable none)
    ⟨_, List.mem_cons_self .., by
      have : (depFound rx0 (fun _ => true) sampleFmt false ["apple/N"] [verbMacro none] sampleFile 0).length = 1 := by decide
      intro h
      have h' : depFound rx0 (fun _ => true) sampleFmt false ["apple/N"] [verbMacro none] sampleFile 0 = [] := h
      rw [h'] at this
      exact absurd this (by decide)⟩
  exact ⟨mtx, h2⟩

/-- One worker processes the sample file twice. -/
theorem sample_call_two (targets : List String) : ∃ acc, DepCall (depFound rx0 (fun _ => true) sampleFmt false targets [verbMacro none]) 1 [sampleFile, sampleFile]
    (fun _ => []) acc := by
  refine ⟨_, [.produce, .take 0, .work 0, .produce, .take 0, .work 0, .produce, .take 0, .work 0], ⟨[], [], [.done ()], [_, _]⟩, [_, _],
      by intro i; simp, rfl, ⟨rfl, ?_⟩, rfl, rfl⟩
  intro w hw
  simp at hw
  exact Or.inl ⟨(), hw⟩

/-- The hypotheses of `C180_files_partial` hold for the sample file given twice. -/
example : [sampleFile, sampleFile].Perm ([sampleFile] ++ [sampleFile]) ∧
    (∀ c ∈ [sampleFile, sampleFile], ∃ r, depJob rx0 (fun _ => true) sampleFmt (fileId false c) ["apple/N"] [verbMacro none] c.lines = .ok r) ∧
    (∃ acc, DepCall (depFound rx0 (fun _ => true) sampleFmt false ["apple/N"] [verbMacro none]) 1 [sampleFile, sampleFile] (fun _ => []) acc) := by
  refine ⟨List.Perm.refl _, ?_, sample_call_two _⟩
  intro c hc
  have : c = sampleFile := by simpa using hc
  subst this
  obtain ⟨ms, h1, _⟩ := C39_partial (rx := rx0) (istree := fun _ => true) (fid := none) sample_settings sampleFile.lines sample_read (by
    intro ws h; rcases List.mem_singleton.1 h with rfl; exact sample_sentence) ["apple/N"] [verbMacro none] (by
    intro m h; rcases List.mem_singleton.1 h with rfl; exact sample_macro none)
  exact ⟨ms, h1⟩

/-- **C180 is false in general**: the sample corpus has a matrix for the target `apple/N`, but the handler for `pear/N`,
which does not occur, raises `ValueError` instead of giving a matrix of zeros. -/
theorem C180_false : (∃ mtx, matchMatrix grp0 false (withFound [verbMacro none]
      (fun i => depFound rx0 (fun _ => true) sampleFmt false ["apple/N"] [verbMacro none] sampleFile i)) = .ok mtx) ∧
    ∃ acc, DepCall (depFound rx0 (fun _ => true) sampleFmt false ["pear/N"] [verbMacro none]) 1 [sampleFile] (fun _ => []) acc ∧
      matchMatrix grp0 false (withFound [verbMacro none] acc) = .error .valueError := by
  refine ⟨sample_matrix, _, sample_call ["pear/N"], ?_⟩
  apply C67_false_none
  intro m hm
  have : m = { verbMacro none with found := depFound rx0 (fun _ => true) sampleFmt false ["pear/N"] [verbMacro none] sampleFile 0 } := by
    simpa [withFound] using hm
  rw [this]
  show depFound rx0 (fun _ => true) sampleFmt false ["pear/N"] [verbMacro none] sampleFile 0 = []
  have : (depFound rx0 (fun _ => true) sampleFmt false ["pear/N"] [verbMacro none] sampleFile 0).length = 0 := by decide
  exact List.length_eq_zero_iff.1 this

end Verif.Dep
