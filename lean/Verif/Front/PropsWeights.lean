import Verif.Front.Tokens
import Verif.Items.NodeLemmas
import Verif.Matrix.PropsMerge

/-!
# Token weights: properties of `build_tc_weight_matrix`
-/

set_option linter.unusedSectionVars false

namespace Verif.Front

open Verif.Py
open Verif.Items (join split)
open Verif.Vocab.Plain (Str)
open Verif.Matrix (Mtx Valid entry storedEntry at2 WF2 mtxToDict dictToSp mkMtx Sp)

/-- A token is its type followed by a file and a line without slashes. -/
def IsToken (tok ty : Str) : Prop := ∃ fid lid, '/' ∉ fid ∧ '/' ∉ lid ∧ tok = ty ++ '/' :: (fid ++ '/' :: lid)

theorem typeOfToken_of {tok ty : Str} (h : IsToken tok ty) : typeOfToken tok = ty := by
  obtain ⟨fid, lid, h1, h2, rfl⟩ := h
  rw [typeOfToken, Items.split_sep, Items.split_append '/' _ _ h1, Items.split_noc '/' _ h2]
  rw [show split '/' ty ++ [fid, lid] = (split '/' ty ++ [fid]) ++ [lid] by simp, List.dropLast_concat,
    List.dropLast_concat, Items.join_split]

theorem at2_copyRow (row : Dict Str Int) (tok : Str) (feats : List Str) (d : Dict Str (Dict Str Int)) (r c : Str) :
    at2 (copyRow row tok d feats) r c =
      if r = tok ∧ c ∈ feats then (Dict.get? row c).or (at2 d r c) else at2 d r c := by
  induction feats generalizing d with
  | nil => simp [copyRow]
  | cons f fs ih =>
    have hstep : copyRow row tok d (f :: fs) = copyRow row tok
        (match Dict.get? row f with | some v => write d (tok, f, v) | none => d) fs := rfl
    rw [hstep, ih]
    cases hf : Dict.get? row f with
    | none =>
      simp only [List.mem_cons]
      by_cases hc : c = f
      · subst hc; simp [hf]
      · simp [hc]
    | some v =>
      have hw : at2 (write d (tok, f, v)) r c = if tok = r ∧ f = c then some v else at2 d r c :=
        Matrix.at2_set d tok f v r c
      simp only [hw, List.mem_cons]
      by_cases hr : r = tok
      · subst hr
        by_cases hc : c = f
        · subst hc; simp [hf]
        · simp [hc, Ne.symm hc]
      · simp [hr, Ne.symm hr]

theorem WF2_copyRow (row : Dict Str Int) (tok : Str) (feats : List Str) (d : Dict Str (Dict Str Int)) (h : WF2 d) :
    WF2 (copyRow row tok d feats) := by
  induction feats generalizing d with
  | nil => exact h
  | cons f fs ih =>
    have hstep : copyRow row tok d (f :: fs) = copyRow row tok
        (match Dict.get? row f with | some v => write d (tok, f, v) | none => d) fs := rfl
    rw [hstep]
    apply ih
    cases Dict.get? row f with
    | none => exact h
    | some v => exact Matrix.WF2_set h _ _ _

theorem group_mem (weights : Dict Str (Dict Str Int)) (toks : List Str) (ty tok : Str) :
    (ty, tok) ∈ pairs (groupTokens weights toks) ↔
      tok ∈ toks ∧ typeOfToken tok = ty ∧ Dict.contains weights ty = true := by
  suffices h : ∀ (g : Dict Str (List Str)), Dict.WF g →
      Dict.WF (toks.foldl (fun g tok =>
        if Dict.contains weights (typeOfToken tok)
        then Dict.set g (typeOfToken tok) ((Dict.get? g (typeOfToken tok)).getD [] ++ [tok]) else g) g) ∧
      ∀ ty, tok ∈ (Dict.get? (toks.foldl (fun g tok =>
        if Dict.contains weights (typeOfToken tok)
        then Dict.set g (typeOfToken tok) ((Dict.get? g (typeOfToken tok)).getD [] ++ [tok]) else g) g) ty).getD [] ↔
      tok ∈ (Dict.get? g ty).getD [] ∨ (tok ∈ toks ∧ typeOfToken tok = ty ∧ Dict.contains weights ty = true) by
    obtain ⟨h1, h2⟩ := h [] Dict.WF_nil
    have h3 : tok ∈ (Dict.get? (groupTokens weights toks) ty).getD [] ↔
        (tok ∈ toks ∧ typeOfToken tok = ty ∧ Dict.contains weights ty = true) := by
      refine (h2 ty).trans ?_
      simp
    rw [← h3]
    have h1' : Dict.WF (groupTokens weights toks) := h1
    simp only [pairs, List.mem_flatMap, List.mem_map, Prod.mk.injEq, Prod.exists]
    constructor
    · rintro ⟨a, l, hal, x, hx, rfl, rfl⟩
      rw [Dict.get?_of_mem h1' hal]; exact hx
    · intro hm
      cases hg : Dict.get? (groupTokens weights toks) ty with
      | none => rw [hg] at hm; simp at hm
      | some l =>
        rw [hg] at hm
        exact ⟨ty, l, Dict.mem_of_get? hg, tok, hm, rfl, rfl⟩
  induction toks with
  | nil => intro g hg; exact ⟨hg, by simp⟩
  | cons x xs ih =>
    intro g hg
    rw [List.foldl_cons]
    by_cases hx : Dict.contains weights (typeOfToken x) = true
    · simp only [hx, if_true]
      obtain ⟨h1, h2⟩ := ih _ (Dict.WF_set hg (typeOfToken x) ((Dict.get? g (typeOfToken x)).getD [] ++ [x]))
      refine ⟨h1, fun ty => ?_⟩
      rw [h2 ty, Dict.get?_set]
      by_cases ht : typeOfToken x = ty
      · subst ht
        simp only [if_true, Option.getD_some, List.mem_append, List.mem_singleton, List.mem_cons, hx, and_true]
        by_cases hxt : tok = x
        · subst hxt; simp
        · simp [hxt]
      · simp only [if_neg ht, List.mem_cons]
        by_cases hxt : tok = x
        · subst hxt; simp [ht]
        · simp [hxt]
    · simp only [hx]
      obtain ⟨h1, h2⟩ := ih g hg
      refine ⟨h1, fun ty => ?_⟩
      refine (h2 ty).trans ?_
      simp only [List.mem_cons]
      by_cases hxt : tok = x
      · subst hxt
        have : ¬ (typeOfToken tok = ty ∧ Dict.contains weights ty = true) := by
          rintro ⟨rfl, h⟩; exact hx h
        simp [this]
      · simp [hxt]

/-- The loop over the tokens: it succeeds if every token has contexts. -/
theorem weigh_fold (contexts weights : Dict Str (Dict Str Int)) (ps : List (Str × Str))
    (hp : ∀ p ∈ ps, p.1 = typeOfToken p.2) (hc : ∀ p ∈ ps, Dict.get? contexts p.2 ≠ none)
    (d : Dict Str (Dict Str Int)) (hd : WF2 d) :
    ∃ e, ps.foldlM (weighToken contexts weights) d = .ok e ∧ WF2 e ∧
      ∀ r c, at2 e r c =
        if (typeOfToken r, r) ∈ ps ∧ at2 contexts r c ≠ none then (at2 weights (typeOfToken r) c).or (at2 d r c)
        else at2 d r c := by
  induction ps generalizing d with
  | nil => exact ⟨d, rfl, hd, by simp⟩
  | cons p ps ih =>
    obtain ⟨ty, tok⟩ := p
    have hty : ty = typeOfToken tok := hp (ty, tok) (by simp)
    subst hty
    cases hg : Dict.get? contexts tok with
    | none => exact absurd hg (hc (typeOfToken tok, tok) (by simp))
    | some feats =>
      have hstep : weighToken contexts weights d (typeOfToken tok, tok) =
          .ok (copyRow ((Dict.get? weights (typeOfToken tok)).getD []) tok d (Dict.keys feats)) := by
        simp only [weighToken, hg]
      obtain ⟨e, he, hwf, hat⟩ := ih (fun p hm => hp p (by simp [hm])) (fun p hm => hc p (by simp [hm])) _
        (WF2_copyRow ((Dict.get? weights (typeOfToken tok)).getD []) tok (Dict.keys feats) d hd)
      refine ⟨e, by rw [List.foldlM_cons, hstep]; exact he, hwf, fun r c => ?_⟩
      rw [hat r c, at2_copyRow]
      have hw : Dict.get? ((Dict.get? weights (typeOfToken tok)).getD []) c = at2 weights (typeOfToken tok) c := by
        unfold at2; cases Dict.get? weights (typeOfToken tok) <;> rfl
      have hf : at2 contexts tok c ≠ none ↔ c ∈ Dict.keys feats := by
        unfold at2; rw [hg, Option.bind_some, ← Dict.get?_isSome_iff, Option.isSome_iff_ne_none]
      simp only [hw, List.mem_cons, Prod.mk.injEq]
      by_cases hr : r = tok
      · subst hr
        simp only [true_and, ← hf, and_self, true_or]
        by_cases hx : at2 contexts r c = none
        · simp [hx]
        · cases at2 weights (typeOfToken r) c <;> simp [hx]
      · simp [hr]

/-- The rows of a nested dictionary made of a matrix are not empty. -/
theorem spToDict_rows {rows cols : List Str} (es : List ((Nat × Nat) × Int)) (d e : Dict Str (Dict Str Int))
    (h : es.foldlM (Matrix.putEntry rows cols) d = .ok e) (hd : ∀ r row, Dict.get? d r = some row → row ≠ []) :
    ∀ r row, Dict.get? e r = some row → row ≠ [] := by
  induction es generalizing d with
  | nil => obtain rfl := Except.ok.inj h; exact hd
  | cons x es ih =>
    rw [List.foldlM_cons] at h
    cases hx : Matrix.putEntry rows cols d x with
    | error err => rw [hx] at h; exact (nomatch h)
    | ok d' =>
      rw [hx] at h
      refine ih d' h ?_
      unfold Matrix.putEntry at hx
      split at hx
      · next r0 c0 _ _ =>
        obtain rfl := Except.ok.inj hx
        intro r row hr
        rw [Dict.get?_set] at hr
        split_ifs at hr with hrr
        · obtain rfl := Option.some.inj hr
          intro h0
          have := Dict.get?_set ((Dict.get? d r0).getD []) c0 c0 x.2
          rw [h0] at this
          simp only [if_true] at this
          exact (nomatch this)
        · exact hd r row hr
      · exact (nomatch hx)

theorem mtxToDict_rows {m : Mtx Str Int} {s : Sp Int} (hm : Valid m) (hb : m.body = .sp s)
    {d : Dict Str (Dict Str Int)} (h : mtxToDict m = .ok d) (r : Str) :
    Dict.contains d r = true ↔ ∃ c, storedEntry m r c ≠ none := by
  obtain ⟨d', h1, h2, w, v⟩ := Matrix.mtxToDict_spec hm hb
  obtain rfl : d' = d := Except.ok.inj (h1.symm.trans h)
  have hrows := spToDict_rows s.data [] d' h2 (fun r row h => nomatch h) r
  constructor
  · intro hc
    cases hg : Dict.get? d' r with
    | none =>
      rw [Dict.get?_eq_none_iff, ← Dict.contains_iff] at hg; exact absurd hc hg
    | some row =>
      cases row with
      | nil => exact absurd rfl (hrows _ hg)
      | cons p row =>
        refine ⟨p.1, ?_⟩
        rw [← v]; unfold at2; rw [hg, Option.bind_some, Dict.get?_cons, if_pos rfl]; simp
  · rintro ⟨c, hc⟩
    rw [← v] at hc
    by_contra hn
    have : Dict.get? d' r = none := by rw [Dict.get?_eq_none_iff, ← Dict.contains_iff]; exact hn
    unfold at2 at hc
    rw [this] at hc
    exact hc rfl

/-- If both matrices have the same column items, every token whose type has weights has a context and at least one weight
applies, then the entry for a token, which is its type followed by file and line, and a context is the weight of the type of the
token for that context, if the context occurs with the token, and zero otherwise.  Missing from the full claim: columns
in another order, see `C106_false`, and file identifiers with slashes, see `C106_slash`. -/
theorem C106_weights_partial {tc tw : Mtx Str Int} (hc : Valid tc) (hw : Valid tw) {s t : Sp Int}
    (hs : tc.body = .sp s) (ht : tw.body = .sp t) (hcols : tc.cols = tw.cols)
    (hctx : ∀ tok ∈ tc.rows, ∀ ty, IsToken tok ty → (∃ c, storedEntry tw ty c ≠ none) →
      ∃ c, storedEntry tc tok c ≠ none)
    (hform : ∀ tok ∈ tc.rows, ∃ ty, IsToken tok ty)
    (hne : ∃ tok ty c, tok ∈ tc.rows ∧ IsToken tok ty ∧ storedEntry tc tok c ≠ none ∧ storedEntry tw ty c ≠ none) :
    ∃ r, buildTcWeights tc tw = .ok r ∧ Valid r ∧ r.rows = tc.rows ∧ r.cols = tc.cols ∧
      ∀ tok ∈ tc.rows, ∀ ty, IsToken tok ty → ∀ c,
        entry r tok c = if storedEntry tc tok c ≠ none then entry tw ty c else 0 := by
  obtain ⟨contexts, e1, _, w1, v1⟩ := Matrix.mtxToDict_spec hc hs
  obtain ⟨weights, e2, _, w2, v2⟩ := Matrix.mtxToDict_spec hw ht
  have hmem : ∀ tok, (typeOfToken tok, tok) ∈ pairs (groupTokens weights tc.rows) ↔
      tok ∈ tc.rows ∧ Dict.contains weights (typeOfToken tok) = true := by
    intro tok; rw [group_mem]; simp
  obtain ⟨d, e3, w3, v3⟩ := weigh_fold contexts weights (pairs (groupTokens weights tc.rows))
    (by rintro ⟨ty, tok⟩ hp; exact ((group_mem _ _ _ _).1 hp).2.1.symm)
    (by
      rintro ⟨ty, tok⟩ hp
      obtain ⟨hrow, hty, hcon⟩ := (group_mem _ _ _ _).1 hp
      obtain ⟨ty', hty'⟩ := hform tok hrow
      obtain rfl : ty' = ty := (typeOfToken_of hty').symm.trans hty
      obtain ⟨c, hcx⟩ := hctx tok hrow ty' hty' ((mtxToDict_rows hw ht e2 ty').1 hcon)
      rw [← v1] at hcx
      intro hn
      simp only at hn
      unfold at2 at hcx
      rw [hn] at hcx
      exact hcx rfl) [] ⟨Dict.WF_nil, by simp⟩
  have hnil : ∀ r c, at2 ([] : Dict Str (Dict Str Int)) r c = none := fun _ _ => rfl
  -- the entries of the nested dictionary
  have hval : ∀ tok c, at2 d tok c =
      if tok ∈ tc.rows ∧ storedEntry tc tok c ≠ none then storedEntry tw (typeOfToken tok) c else none := by
    intro tok c
    rw [v3 tok c]
    simp only [hmem, v1, v2, hnil]
    by_cases h1 : tok ∈ tc.rows ∧ storedEntry tc tok c ≠ none
    · rw [if_pos h1]
      by_cases h2 : Dict.contains weights (typeOfToken tok) = true
      · rw [if_pos ⟨⟨h1.1, h2⟩, h1.2⟩]; simp
      · rw [if_neg (fun h => h2 h.1.2)]
        have h3 : Dict.get? weights (typeOfToken tok) = none := by
          rw [Dict.get?_eq_none_iff, ← Dict.contains_iff]; exact h2
        rw [← v2]; unfold at2; rw [h3]; rfl
    · rw [if_neg h1, if_neg (fun h => h1 ⟨h.1.1, h.2⟩)]
  have hcov : ∀ r c v, at2 d r c = some v → r ∈ tc.rows ∧ c ∈ tw.cols := by
    intro r c v h
    rw [hval] at h
    split_ifs at h with h1
    exact ⟨h1.1, (Matrix.storedEntry_names h).2⟩
  have hne' : ∃ r c v, at2 d r c = some v := by
    obtain ⟨tok, ty, c, h1, h2, h3, h4⟩ := hne
    obtain ⟨v, hv⟩ := Option.ne_none_iff_exists'.1 h4
    refine ⟨tok, c, v, ?_⟩
    rw [hval, if_pos ⟨h1, h3⟩, typeOfToken_of h2, hv]
  obtain ⟨u, e4, hv4, _, hen⟩ := Matrix.dictToSp_entry w3 hc.rows hw.cols hcov hne'
  have hmk : mkMtx (.sp u) tc.rows tc.cols = .ok ⟨.sp u, tc.rows, tc.cols⟩ :=
    Matrix.mkMtx_sp hv4.nr (by rw [hcols]; exact hv4.nc)
  refine ⟨⟨.sp u, tc.rows, tc.cols⟩, ?_, by rw [hcols]; exact hv4, rfl, rfl, ?_⟩
  · rw [buildTcWeights, e1]
    show (mtxToDict tw >>= _) = _
    rw [e2]
    show (List.foldlM (weighToken contexts weights) [] (pairs (groupTokens weights tc.rows)) >>= _) = _
    rw [e3]
    show (dictToSp d tc.rows tw.cols >>= _) = _
    rw [e4]
    exact hmk
  · intro tok hrow ty hty c
    have := hen tok c
    rw [hcols, this, hval]
    by_cases h1 : storedEntry tc tok c = none
    · simp [h1]
    · rw [if_pos ⟨hrow, h1⟩, if_pos h1, typeOfToken_of hty, Matrix.entry_eq_stored ht]

/-- The loop over the tokens fails at a token without contexts. -/
theorem weigh_fold_error (contexts weights : Dict Str (Dict Str Int)) (ps : List (Str × Str)) {p : Str × Str}
    (hp : p ∈ ps) (hc : Dict.get? contexts p.2 = none) (d : Dict Str (Dict Str Int)) :
    ps.foldlM (weighToken contexts weights) d = .error .keyError := by
  induction ps generalizing d with
  | nil => simp at hp
  | cons q ps ih =>
    rw [List.foldlM_cons]
    cases hq : Dict.get? contexts q.2 with
    | none => simp only [weighToken, hq]; rfl
    | some feats =>
      have hpq : p ∈ ps := by
        rcases List.mem_cons.1 hp with rfl | h
        · rw [hc] at hq; exact (nomatch hq)
        · exact h
      simp only [weighToken, hq]
      exact ih hpq _

/-- A token without any context, of a type that has weights, is a key error. -/
theorem C106_no_context {tc tw : Mtx Str Int} (hc : Valid tc) (hw : Valid tw) {s t : Sp Int}
    (hs : tc.body = .sp s) (ht : tw.body = .sp t) {tok ty c : Str} (hrow : tok ∈ tc.rows) (hty : IsToken tok ty)
    (hwt : storedEntry tw ty c ≠ none) (hno : ∀ c, storedEntry tc tok c = none) :
    buildTcWeights tc tw = .error .keyError := by
  obtain ⟨contexts, e1, _, w1, v1⟩ := Matrix.mtxToDict_spec hc hs
  obtain ⟨weights, e2, _, w2, v2⟩ := Matrix.mtxToDict_spec hw ht
  have hmem : (ty, tok) ∈ pairs (groupTokens weights tc.rows) :=
    (group_mem _ _ _ _).2 ⟨hrow, typeOfToken_of hty, (mtxToDict_rows hw ht e2 ty).2 ⟨c, hwt⟩⟩
  have hnone : Dict.get? contexts tok = none := by
    rw [Dict.get?_eq_none_iff, ← Dict.contains_iff, mtxToDict_rows hc hs e1]
    rintro ⟨c, h⟩; exact h (hno c)
  have e3 := weigh_fold_error contexts weights _ hmem hnone []
  rw [buildTcWeights, e1]
  show (mtxToDict tw >>= _) = _
  rw [e2]
  show (List.foldlM (weighToken contexts weights) [] (pairs (groupTokens weights tc.rows)) >>= _) = _
  rw [e3]
  rfl

/-- If the matrices do not have the same number of columns, the function always fails. -/
theorem C106_sizes {tc tw : Mtx Str Int} (hw : tw.cols.Nodup) (h : tc.cols.length ≠ tw.cols.length) (r : Mtx Str Int) :
    buildTcWeights tc tw ≠ .ok r := by
  intro hr
  unfold buildTcWeights at hr
  cases h1 : mtxToDict tc with
  | error e => rw [h1] at hr; exact (nomatch hr)
  | ok contexts =>
    rw [h1] at hr
    cases h2 : mtxToDict tw with
    | error e => rw [h2] at hr; exact (nomatch hr)
    | ok weights =>
      rw [h2] at hr
      cases h3 : (pairs (groupTokens weights tc.rows)).foldlM (weighToken contexts weights) [] with
      | error e =>
        have hr' : (List.foldlM (weighToken contexts weights) [] (pairs (groupTokens weights tc.rows)) >>= fun d =>
          dictToSp d tc.rows tw.cols >>= fun s => mkMtx (.sp s) tc.rows tc.cols) = .ok r := hr
        rw [h3] at hr'; exact (nomatch hr')
      | ok d =>
        have hr' : (List.foldlM (weighToken contexts weights) [] (pairs (groupTokens weights tc.rows)) >>= fun d =>
          dictToSp d tc.rows tw.cols >>= fun s => mkMtx (.sp s) tc.rows tc.cols) = .ok r := hr
        rw [h3] at hr'
        have hr2 : (dictToSp d tc.rows tw.cols >>= fun s => mkMtx (.sp s) tc.rows tc.cols) = .ok r := hr'
        cases h4 : dictToSp d tc.rows tw.cols with
        | error e => rw [h4] at hr2; exact (nomatch hr2)
        | ok s =>
          rw [h4] at hr2
          have hr3 : mkMtx (.sp s) tc.rows tc.cols = .ok r := hr2
          have hnc : s.nc = tw.cols.length := by
            unfold dictToSp at h4
            cases h5 : (Matrix.dictEntries d).mapM (Matrix.locate (Matrix.idOf tc.rows) (Matrix.idOf tw.cols)) with
            | error e => simp only [h5] at h4; exact (nomatch h4)
            | ok es =>
              simp only [h5] at h4
              cases es with
              | nil => exact (nomatch h4)
              | cons e es =>
                obtain rfl := Except.ok.inj h4
                exact Matrix.length_keys_idOf hw
          unfold mkMtx at hr3
          split_ifs at hr3 with h6 h7
          exact h (by
            have : Matrix.Body.nc (.sp s) = s.nc := rfl
            simp only [this, not_not] at h7
            omega)

/-- With a slash in the identifier of the file, the type is not recognised: it is taken to include the directory. -/
theorem C106_slash {ty dir file lid : Str} (h1 : '/' ∉ file) (h2 : '/' ∉ lid) :
    typeOfToken (ty ++ '/' :: (dir ++ '/' :: file) ++ '/' :: lid) = ty ++ '/' :: dir :=
  typeOfToken_of ⟨file, lid, h1, h2, by simp⟩

/-- A token with two contexts and the weights of its type, with the columns in the same order. -/
def tcSame : Mtx Str Int :=
  ⟨.sp { fmt := .csr, nr := 1, nc := 2, data := [((0, 0), -1), ((0, 1), 2)] }, ["a/n/f/1".toList],
    ["x".toList, "y".toList]⟩
/-- The weights of the type. -/
def twSame : Mtx Str Int :=
  ⟨.sp { fmt := .csr, nr := 1, nc := 2, data := [((0, 0), 7), ((0, 1), 9)] }, ["a/n".toList], ["x".toList, "y".toList]⟩
/-- The same weights with the columns in the other order. -/
def twSwap : Mtx Str Int :=
  ⟨.sp { fmt := .csr, nr := 1, nc := 2, data := [((0, 0), 9), ((0, 1), 7)] }, ["a/n".toList], ["y".toList, "x".toList]⟩

/-- The entry that a user reads off the result. -/
def entryOf (r : Except Matrix.Err (Mtx Str Int)) (tok c : Str) : Option Int :=
  match r with
  | .ok m => some (entry m tok c)
  | .error _ => none

/-- With the columns in another order the weights stand under the wrong names: the claim is false. -/
theorem C106_false : ¬ ∀ (tc tw r : Mtx Str Int) (tok ty c : Str), Valid tc → Valid tw → IsToken tok ty →
    buildTcWeights tc tw = .ok r → storedEntry tc tok c ≠ none → entry r tok c = entry tw ty c := by
  intro h
  have h1 : entryOf (buildTcWeights tcSame twSwap) "a/n/f/1".toList "x".toList = some 9 := by decide +kernel
  cases hr : buildTcWeights tcSame twSwap with
  | error e => rw [hr] at h1; exact (nomatch h1)
  | ok r =>
    rw [hr] at h1
    have h2 := h tcSame twSwap r "a/n/f/1".toList "a/n".toList "x".toList
      ⟨rfl, rfl, by decide +kernel, by decide +kernel, by
        rintro s hs; simp only [tcSame, Matrix.Body.sp.injEq] at hs; subst hs
        exact ⟨by decide, by decide⟩⟩
      ⟨rfl, rfl, by decide +kernel, by decide +kernel, by
        rintro s hs; simp only [twSwap, Matrix.Body.sp.injEq] at hs; subst hs
        exact ⟨by decide, by decide⟩⟩
      ⟨"f".toList, "1".toList, by decide, by decide, by decide⟩ hr (by decide +kernel)
    have h3 : entry twSwap "a/n".toList "x".toList = 7 := by decide +kernel
    simp only [entryOf, h2, h3] at h1
    exact absurd h1 (by decide)

/-- With the columns in the same order the weights are right. -/
example : entryOf (buildTcWeights tcSame twSame) "a/n/f/1".toList "x".toList = some 7 := by decide +kernel

/-- The hypotheses of `C106_weights_partial` are met by these matrices. -/
example : tcSame.cols = twSame.cols ∧
    (∀ tok ∈ tcSame.rows, ∀ ty, IsToken tok ty → (∃ c, storedEntry twSame ty c ≠ none) →
      ∃ c, storedEntry tcSame tok c ≠ none) ∧
    (∀ tok ∈ tcSame.rows, ∃ ty, IsToken tok ty) ∧
    (∃ tok ty c, tok ∈ tcSame.rows ∧ IsToken tok ty ∧ storedEntry tcSame tok c ≠ none ∧
      storedEntry twSame ty c ≠ none) := by
  have ht : IsToken "a/n/f/1".toList "a/n".toList := ⟨"f".toList, "1".toList, by decide, by decide, by decide⟩
  refine ⟨rfl, ?_, ?_, "a/n/f/1".toList, "a/n".toList, "x".toList, by decide +kernel, ht, by decide +kernel,
    by decide +kernel⟩
  · intro tok h _ _ _
    rw [show tok = "a/n/f/1".toList by simpa [tcSame] using h]
    exact ⟨"x".toList, by decide +kernel⟩
  · intro tok h
    rw [show tok = "a/n/f/1".toList by simpa [tcSame] using h]
    exact ⟨_, ht⟩

/-- A token without contexts. -/
example : entryOf (buildTcWeights
    ⟨.sp { fmt := .csr, nr := 2, nc := 2, data := [((0, 0), -1)] }, ["a/n/f/1".toList, "a/n/f/2".toList],
      ["x".toList, "y".toList]⟩ twSame) "a/n/f/1".toList "x".toList = none := by decide +kernel

end Verif.Front
