import Verif.Flow.PropsRetrieve

/-! # Property theorem C165 (no false token is ever retrieved) -/

set_option linter.unusedSectionVars false

namespace Verif.Flow
open Verif.Py Verif.Vocab Verif.Corpus Verif.Window Verif.Engine Verif.Matrix

variable {J A R ℓ μ κ φ : Type}

/-- Nothing is gained in a run, even if workers die. -/
theorem weights_le {T : Type} {w : Weights J A R (Multiset T)} {p : Prog J A R} (hb : w.Balanced p) {as : List Action}
    {s s' : State J A R} (h : Engine.exec p as s = some s') : w.total s' ≤ w.total s := by
  refine exec_invariant p (fun t => w.total t ≤ w.total s) (fun _ => True) ?_ as s s' (fun _ _ => trivial) le_rfl h
  intro a t t' _ hI hs
  refine le_trans ?_ hI
  by_cases hc : ∃ i, a = .crash i
  · obtain ⟨i, rfl⟩ := hc
    rcases Engine.step_cases hs with ⟨x, rest, e, _⟩ | ⟨i, b, j, q, e, _⟩ | ⟨i, b, q, e, _⟩ | ⟨i, b, j, e, _⟩ | ⟨i, b, e, _⟩ |
      ⟨i, x, _, h1, _, _, rfl⟩
    · cases e
    · cases e
    · cases e
    · cases e
    · cases e
    · have e := Engine.sum_map_set w.worker t.workers i _ .crashed h1
      have z : w.worker .crashed = 0 := rfl
      rw [z, add_zero] at e
      have hle : ((t.workers.set i .crashed).map w.worker).sum ≤ (t.workers.map w.worker).sum := by
        rw [← e]; exact Multiset.le_add_right _ _
      simp only [Weights.total]
      exact add_le_add_left (add_le_add_right hle _) _
  · refine le_of_eq (Weights.conserved hb (as := [a]) ?_ ?_)
    · intro i hi
      exact hc ⟨i, (List.mem_singleton.1 hi).symm⟩
    · simp only [Engine.exec, hs]; rfl

/-- In every run, whatever workers do, the results that are read hold tokens of the files only, each at most as often as it was found. -/
theorem tokens_le {Tok : Type} (found : J → κ → List Tok) (W : Nat) (files : List J) (as : List Action)
    (s : State J (Bool × (κ → List Tok)) (TokRes (κ → List Tok)))
    (h : Engine.exec (tokProg found) as (Engine.start (tokProg found) W files) = some s) (n : Nat)
    (rs : List (TokRes (κ → List Tok))) (hr : readN n s = some rs) (k : κ) :
    (mergeToks rs k : Multiset Tok) ≤ (files.flatMap (fun j => found j k) : List Tok) := by
  let v : Weights J (Bool × (κ → List Tok)) (TokRes (κ → List Tok)) (Multiset Tok) :=
    { job := fun j => (found j k : Multiset Tok), mark := 0, idle := fun a => (a.2 k : Multiset Tok),
      stopping := fun a => (a.2 k : Multiset Tok), done := fun _ => 0,
      res := fun r => match r with | .toks t => (t k : Multiset Tok) | .minus1 => 0 }
  have hb' : v.Balanced (tokProg found) := by
    refine ⟨fun _ => by simp [v], ?_, ?_⟩
    · rintro ⟨b, t⟩ j; cases b <;> simp [v, tokProg, tokenProg]
    · rintro ⟨b, t⟩; simp [v, tokProg, tokenProg]
  have e := weights_le hb' h
  rw [Weights.total_start] at e
  have z2 : v.idle (tokProg found).init = 0 := by simp [v, tokProg, tokenProg]
  have z3 : v.mark = 0 := rfl
  rw [z2, z3] at e
  simp only [nsmul_zero, add_zero] at e
  have r1 : ∀ l : List (TokRes (κ → List Tok)), (l.map v.res).sum = (mergeToks l k : Multiset Tok) := by
    intro l
    unfold mergeToks
    induction l with
    | nil => rfl
    | cons x l ih =>
      rw [List.map_cons, List.sum_cons, ih]
      cases x <;> simp [v]
  have r2 : ∀ l : List J, (l.map v.job).sum = (l.flatMap (fun j => found j k) : Multiset Tok) := by
    intro l
    induction l with
    | nil => rfl
    | cons x l ih => rw [List.map_cons, List.sum_cons, ih, List.flatMap_cons, ← Multiset.coe_add]
  rw [← r1, ← r2]
  refine le_trans ?_ e
  unfold readN at hr
  split at hr
  · obtain rfl := Option.some.inj hr
    have : (s.results.map v.res).sum = ((s.results.take n).map v.res).sum + ((s.results.drop n).map v.res).sum := by
      rw [← List.sum_append, ← List.map_append, List.take_append_drop]
    unfold Weights.total
    rw [this]
    refine le_trans (Multiset.le_add_right _ _) (Multiset.le_add_left _ _)
  · cases hr

variable [LinearOrder κ]

theorem flatMap_subperm {α β : Type} (l : List α) {f g : α → List β} (h : ∀ a ∈ l, (f a).Subperm (g a)) :
    (l.flatMap f).Subperm (l.flatMap g) := by
  induction l with
  | nil => exact List.Subperm.refl _
  | cons a l ih =>
    rw [List.flatMap_cons, List.flatMap_cons]
    exact (h a List.mem_cons_self).append (ih (fun b hb => h b (List.mem_cons_of_mem _ hb)))

theorem subperm_map {α β : Type} (f : α → β) {l l' : List α} (h : l.Subperm l') : (l.map f).Subperm (l'.map f) := by
  obtain ⟨k, hk, hs⟩ := h
  exact ⟨k.map f, hk.map f, hs.map f⟩

/-- The tokens that are retrieved in any run. -/
theorem retrieved_sub {f : Formatter ℓ μ κ} {L R : Nat} (hR : R ≠ 0) {colv : Vocab κ} {qs : List κ} (hq : qs.Nodup)
    {files : List (φ × List ℓ)} {W : Nat} {as : List Action}
    {s : State (φ × List ℓ) (Bool × Toks φ μ κ) (TokRes (Toks φ μ κ))}
    (h : Engine.exec (retrieveProg f L R colv qs) as (Engine.start (retrieveProg f L R colv qs) W files) = some s)
    (name : φ → μ → Nat → κ) (order : List κ → List κ) (n : Nat) (res : Except Matrix.Err (Mtx κ Int))
    (hr : retrieve f name order n s = some res) :
    ∃ toks : List (Tok κ), res = nodesToMatrix toks order ∧
      toks.Subperm (files.flatMap (fun F => qs.flatMap (fun k =>
        (found f L R (handlerVocab colv) F k).map (asTok f name)))) := by
  have hsim := retrieve_sim (φ := φ) f L R hR colv hq
  obtain ⟨s0, h1, rfl⟩ := run_of_sim hsim h
  unfold retrieve at hr
  rw [readN_map] at hr
  cases h2 : readN n s0 with
  | none => rw [h2] at hr; cases hr
  | some rs =>
    rw [h2] at hr
    refine ⟨_, (Option.some.inj hr).symm, ?_⟩
    rw [mergeRes_flatMap hq]
    refine List.Subperm.trans ?_ (flatMap_swap qs files _).subperm
    refine flatMap_subperm _ (fun k _ => ?_)
    rw [← List.map_flatMap]
    exact subperm_map _ (Multiset.coe_le.1 (tokens_le _ W files as s0 h1 n rs h2 k))

/-- **C165.** Whatever the schedule, even if workers get no file or die: a matrix that `retrieve_tokens` returns has only rows of
occurrences of the queries, each at most once, and every entry of such a row is right: it is absent if the collocate is not kept
within the spans, otherwise the greatest of the signed ranks of its occurrences among the kept collocates. -/
theorem C165_sound {f : Formatter ℓ μ κ} {L R : Nat} (hR : R ≠ 0) {colv : Vocab κ} {qs : List κ} (hq : qs.Nodup)
    {files : List (φ × List ℓ)} {W : Nat} {as : List Action}
    {s : State (φ × List ℓ) (Bool × Toks φ μ κ) (TokRes (Toks φ μ κ))}
    (h : Engine.exec (retrieveProg f L R colv qs) as (Engine.start (retrieveProg f L R colv qs) W files) = some s)
    {name : φ → μ → Nat → κ} (hname : (occNames f name qs files).Nodup)
    {order : List κ → List κ} (horder : ∀ l, (order l).Perm l) {m : Mtx κ Int}
    (hm : retrieve f name order files.length s = some (.ok m)) :
    Valid m ∧ m.rows.Nodup ∧ (∀ r ∈ m.rows, r ∈ occNames f name qs files) ∧
      ∀ F xs i x, IsOcc f qs files F xs i x → name F.1 x.1 x.2 ∈ m.rows → ∀ c,
        (storedEntry m (name F.1 x.1 x.2) c = none ↔
          ∀ d, ¬ KeptAt (keepOf (handlerVocab colv)) L R (collocsOf f xs) i c d) ∧
        ∀ d, storedEntry m (name F.1 x.1 x.2) c = some d →
          KeptAt (keepOf (handlerVocab colv)) L R (collocsOf f xs) i c d ∧
          ∀ d', KeptAt (keepOf (handlerVocab colv)) L R (collocsOf f xs) i c d' → d' ≤ d := by
  obtain ⟨toks, h1, h2⟩ := retrieved_sub hR hq h name order _ _ hm
  have hall := retrieved_names (f := f) (L := L) (R := R) (colv := handlerVocab colv) hq files name (List.Perm.refl _)
  have hnd := hall.nodup_iff.2 hname
  have hsub := subperm_map Tok.name h2
  have hndt : (toks.map Tok.name).Nodup := by
    obtain ⟨l, hl, hs⟩ := hsub
    exact hl.nodup_iff.1 (hs.nodup hnd)
  have hne : ∃ t ∈ toks, t.left ≠ [] ∨ t.right ≠ [] := by
    by_contra hcon
    have := C27_empty toks hndt order (fun t ht => by
      by_contra hcon2
      refine hcon ⟨t, ht, ?_⟩
      by_contra hcon3
      rw [not_or, not_not, not_not] at hcon3
      exact hcon2 hcon3)
    rw [← h1] at this
    cases this
  obtain ⟨m', e1, e2, e3, e4⟩ := C27_positions_partial hndt horder hne
  rw [← h1] at e1
  obtain rfl := Except.ok.inj e1
  refine ⟨e2, by rw [e3]; exact hndt, ?_, ?_⟩
  · intro r hr
    rw [e3] at hr
    exact hall.mem_iff.1 (hsub.subset hr)
  · intro F xs i x ho hmem c
    have hlen : i < (collocsOf f xs).length := by
      have := lt_length_of_getElem? ho.pos
      simpa [collocsOf] using this
    rw [e3] at hmem
    obtain ⟨t, ht, htn⟩ := List.mem_map.1 hmem
    have hocc : occTok f name (keepOf (handlerVocab colv)) L R F xs i x ∈ files.flatMap (fun F => qs.flatMap (fun k =>
        (found f L R (handlerVocab colv) F k).map (asTok f name))) :=
      List.mem_flatMap.2 ⟨F, ho.file, List.mem_flatMap.2 ⟨f.getType x.1, ho.query,
        mem_found.2 ⟨xs, ho.seg, i, x, ho.pos, rfl, rfl⟩⟩⟩
    have heq : t = occTok f name (keepOf (handlerVocab colv)) L R F xs i x :=
      List.inj_on_of_nodup_map hnd (h2.subset ht) hocc htn
    have hiff := fun d => occursAt_iff (keepOf (handlerVocab colv)) L R (collocsOf f xs) i hlen (name F.1 x.1 x.2) c d
    obtain ⟨g1, g2⟩ := e4 t ht c
    rw [heq] at g1 g2
    refine ⟨g1.trans (forall_congr' (fun d => not_congr (hiff d))), fun d hd => ?_⟩
    obtain ⟨q1, q2⟩ := g2 d hd
    exact ⟨(hiff d).1 q1, fun d' hd' => q2 d' ((hiff d').2 hd')⟩

/-- The hypotheses of C165 can be met: two workers, the second dies without a file. -/
example : ∃ s m, Engine.exec (retrieveProg fmt 2 2 Vocab.empty [1])
      [.produce, .take 0, .crash 1, .work 0, .produce, .take 0, .work 0]
      (Engine.start (retrieveProg fmt 2 2 Vocab.empty [1]) 2 [((), [1, 2, 3])]) = some s ∧
    (occNames fmt lineName [1] [((), [1, 2, 3])]).Nodup ∧
    retrieve fmt lineName id 1 s = some (.ok m) ∧ m.rows = [101] ∧ storedEntry m 101 3 = some 2 :=
  ⟨⟨[none], [], [.done (false, [(1, [tokAll])]), .crashed], [.toks [(1, [tokAll])]]⟩,
    ⟨.sp ⟨.csr, 1, 2, [((0, 0), 1), ((0, 1), 2)]⟩, [101], [2, 3]⟩,
    rfl, by decide +kernel, rfl, rfl, by decide +kernel⟩

end Verif.Flow
