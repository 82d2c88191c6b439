import Verif.Cooc.TmpFiles
import Verif.Cooc.Props
import Verif.Matrix.PropsStore

/-!
# C236: partial counts are passed on in temporary files
-/

set_option linter.unusedSectionVars false

namespace Verif.Cooc
open Verif.Py Verif.Vocab Verif.Corpus Verif.Window Verif.Engine Verif.Matrix Verif.Vocab.Plain

variable {ℓ μ κ : Type} [LinearOrder κ]

/-! ### Names -/

theorem tmp_ext (dir pid : Str) : (splitext (tmpName dir pid)).2 ≠ extPac := by
  have h1 : basePart (tmpName dir pid) = ['s', 'u', 'b', '.', '0'] := by
    have e : tmpName dir pid = (dir ++ '/' :: pid) ++ ['/', 's', 'u', 'b', '.', '0'] := by simp [tmpName]
    unfold basePart
    rw [e, List.reverse_append]
    simp
  unfold splitext
  rw [h1]
  simp [extPac]

theorem tmp_ne {dir p q : Str} (hp : '/' ∉ p) (hq : '/' ∉ q) (h : p ≠ q) (e f : Str) : tmpName dir p ++ e ≠ tmpName dir q ++ f := by
  intro he
  simp only [tmpName, List.append_assoc, List.cons_append, List.append_cancel_left_eq, List.cons.injEq, true_and] at he
  refine h ?_
  have key : ∀ (a x : Str), '/' ∉ a → (a ++ '/' :: x).takeWhile (fun c => c ≠ '/') = a := by
    intro a
    induction a with
    | nil => intro x _; simp
    | cons c a ih =>
      intro x ha
      simp only [List.mem_cons, not_or] at ha
      rw [List.cons_append, List.takeWhile_cons, if_pos (by simpa using Ne.symm ha.1), ih x ha.2]
  have := congrArg (List.takeWhile (fun c => decide (c ≠ '/'))) he
  rw [key p _ hp, key q _ hq] at this
  exact this

/-! ### Files that hold a matrix -/

/-- The two files of a csr matrix lie under a name. -/
def Holds (fs : FS κ Int) (name : Str) (m : Mtx κ Int) : Prop :=
  fs (name ++ extMeta) = some (.info m.rows m.cols) ∧
    ∃ s, m.body = .sp s ∧ s.fmt = .csr ∧ fs (name ++ extNpz) = some (.npz s.arrays)

theorem load_holds {fs : FS κ Int} {name : Str} {m : Mtx κ Int} (hn : (splitext name).2 ≠ extPac) (hv : Valid m)
    (h : Holds fs name m) : ∃ t, Matrix.load fs name false = (fs, .ok t) ∧ SameMatrix m t := by
  obtain ⟨h1, s, hb, hf, h2⟩ := h
  have hcon : Constructible m := by
    unfold Constructible
    have e1 := hv.nr
    have e2 := hv.nc
    rw [hb] at e1 e2
    rw [hb, mkMtx_sp e1 e2, ← hb]
  obtain ⟨t, ht, hs⟩ := reread_ok hcon hv (fun u hu => by rw [hb] at hu; cases hu; exact hf)
  refine ⟨t, ?_, hs⟩
  have hbase : loadBase name = name := by unfold loadBase; rw [if_neg hn]
  have hbf : bodyFile (κ := κ) m.body = .ok (extNpz, .npz s.arrays) := by
    unfold bodyFile; rw [hb]; exact if_neg (by rw [hf]; decide)
  have hrp := readParts_of (fs := fs) (base := name) hbf h1 h2 (fun d hd => by rw [hb] at hd; cases hd)
  unfold Matrix.load
  rw [hbase]
  simp only [Bool.false_eq_true, if_false]
  unfold reread at ht
  rw [hb] at hrp ht
  simp only at hrp ht
  cases hc : s.arrays.toCsr with
  | error e => rw [hc] at ht; exact nomatch ht
  | ok u =>
    rw [hc] at hrp ht
    simp only [Except.map] at hrp
    rw [hrp]
    simp only [bind, Except.bind] at ht
    simp only [ht]

/-- A matrix with the same items and values counts the same. -/
theorem counts_same (f : Formatter ℓ μ κ) (L R : Nat) {rowv colv : Vocab κ} {files : List (List ℓ)} {m t : Mtx κ Int}
    (hm : IsCounts f L R rowv colv files m) (h : SameMatrix m t) : IsCounts f L R rowv colv files t := by
  obtain ⟨s, hb, hf⟩ := hm.csr
  obtain ⟨u, hu, huf, hnr, hnc, hw, hst⟩ := h.stored s hb
  have hval : Valid t := by
    have v := hm.valid
    have e1 := v.nr
    have e2 := v.nc
    rw [hb] at e1 e2
    refine ⟨?_, ?_, by rw [← h.rows]; exact v.rows, by rw [← h.cols]; exact v.cols, ?_⟩
    · rw [hu, ← h.rows]; exact hnr.trans e1
    · rw [hu, ← h.cols]; exact hnc.trans e2
    · intro x hx
      rw [hu] at hx
      cases hx
      exact hw
  refine ⟨hval, ⟨u, hu, huf.trans hf⟩, h.rows ▸ hm.rows, h.cols ▸ hm.sorted, ?_, ?_⟩
  · intro c
    rw [← h.cols]
    exact hm.cols c
  · intro r c
    rw [← hm.entry]
    by_cases hr : r ∈ m.rows
    · by_cases hc : c ∈ m.cols
      · obtain ⟨i, hi⟩ := getElem?_of_mem' hr
        obtain ⟨j, hj⟩ := getElem?_of_mem' hc
        have hv := hm.valid
        rw [entry_of hv.rows hv.cols hi hj, entry_of hval.rows hval.cols (h.rows ▸ hi) (h.cols ▸ hj)]
        exact (h.vals i j (lt_of_getElem? hi) (lt_of_getElem? hj)).symm
      · rw [entry_col_absent r hc, entry_col_absent r (by rw [← h.cols]; exact hc)]
    · rw [entry_row_absent hr c, entry_row_absent (by rw [← h.rows]; exact hr) c]

/-! ### The workers -/

/-- A worker with its process id and the files it has read. -/
abbrev Share (ℓ : Type) := Str × List (List ℓ)

/-- The state of a worker after its files. -/
def shareData (f : Formatter ℓ μ κ) (L R : Nat) (rowv colv : Vocab κ) (w : Share ℓ) : ColData κ :=
  w.2.foldl (colUpd f L R rowv) (colInit colv)

/-- All workers put their results, one after the other. -/
def emitAll (f : Formatter ℓ μ κ) (L R : Nat) (dir : Str) (rowv colv : Vocab κ) (fs : FS κ Int) (ws : List (Share ℓ)) :
    FS κ Int × List (Option Str) :=
  ws.foldl (fun st w => emitTmp dir rowv colv st w.1 (shareData f L R rowv colv w)) (fs, [])

/-- A worker has something to count. -/
def Counted (f : Formatter ℓ μ κ) (L R : Nat) (rowv colv : Vocab κ) (w : Share ℓ) : Prop :=
  ∃ t c, 0 < totalCount f L R rowv colv w.2 t c

/-- A path of a temporary file of a worker. -/
def IsTmp (dir : Str) (w : Share ℓ) (p : Str) : Prop := p = tmpName dir w.1 ++ extMeta ∨ p = tmpName dir w.1 ++ extNpz

theorem save_csr {fs : FS κ Int} {m : Mtx κ Int} (name : Str) {s : Sp Int} (hb : m.body = .sp s) (hf : s.fmt = .csr) :
    (Matrix.save fs m name false).1 = (fs.write (name ++ extMeta) (.info m.rows m.cols)).write (name ++ extNpz) (.npz s.arrays) := by
  have hbf : bodyFile (κ := κ) m.body = .ok (extNpz, .npz s.arrays) := by
    unfold bodyFile; rw [hb]; exact if_neg (by rw [hf]; decide)
  unfold Matrix.save saveBase
  simp only [Bool.false_eq_true, if_false, hbf]

/-- What one worker does. -/
theorem emit_one (f : Formatter ℓ μ κ) (L R : Nat) (dir : Str) {rowv colv : Vocab κ} (hrw : Constructed rowv)
    (hr : rowv.freq ≠ []) (hc : Constructed colv) (st : FS κ Int × List (Option Str)) (w : Share ℓ) :
    (Counted f L R rowv colv w ∧
      (emitTmp dir rowv colv st w.1 (shareData f L R rowv colv w)).2 = st.2 ++ [some (tmpName dir w.1)] ∧
      (∃ m, IsCounts f L R rowv colv w.2 m ∧
        Holds (emitTmp dir rowv colv st w.1 (shareData f L R rowv colv w)).1 (tmpName dir w.1) m) ∧
      ∀ p, ¬IsTmp dir w p → (emitTmp dir rowv colv st w.1 (shareData f L R rowv colv w)).1 p = st.1 p) ∨
    (¬Counted f L R rowv colv w ∧
      emitTmp dir rowv colv st w.1 (shareData f L R rowv colv w) = (st.1, st.2 ++ if colv.freq = [] then [] else [none])) := by
  by_cases hpos : Counted f L R rowv colv w
  · left
    obtain ⟨m, h1, h2⟩ := dict2matrix_share f L R hrw hr hc w.2 hpos
    obtain ⟨s, hb, hf⟩ := h2.csr
    have e : emitTmp dir rowv colv st w.1 (shareData f L R rowv colv w) =
        ((Matrix.save st.1 m (tmpName dir w.1) false).1, st.2 ++ [some (tmpName dir w.1)]) := by
      unfold emitTmp shareData
      rw [h1]
      rfl
    rw [e, save_csr _ hb hf]
    refine ⟨hpos, rfl, ⟨m, h2, ?_, s, hb, hf, ?_⟩, ?_⟩
    · unfold FS.write
      rw [if_neg (ext_ne _ (by decide)), if_pos rfl]
    · unfold FS.write
      rw [if_pos rfl]
    · intro p hp
      unfold IsTmp at hp
      rw [not_or] at hp
      unfold FS.write
      rw [if_neg hp.2, if_neg hp.1]
  · right
    refine ⟨hpos, ?_⟩
    have hz : ∀ t c, totalCount f L R rowv colv w.2 t c = 0 := by
      intro t c
      by_contra h
      exact hpos ⟨t, c, Nat.pos_of_ne_zero h⟩
    have h1 := colEmit_nothing f L R hrw hr hc w.2 hz
    unfold emitTmp shareData
    rw [h1]
    split
    · simp
    · rfl

/-- The entries that a worker puts into the queue. -/
noncomputable def entryOf (f : Formatter ℓ μ κ) (L R : Nat) (dir : Str) (rowv colv : Vocab κ) (w : Share ℓ) : List (Option Str) := by
  classical
  exact if Counted f L R rowv colv w then [some (tmpName dir w.1)] else if colv.freq = [] then [] else [none]

/-- Different workers have different temporary files. -/
theorem tmp_other {dir : Str} {v w : Share ℓ} (hv : '/' ∉ v.1) (hw : '/' ∉ w.1) (h : v.1 ≠ w.1) {p : Str} (hp : IsTmp dir v p) :
    ¬IsTmp dir w p := by
  rintro (h' | h') <;> rcases hp with h'' | h'' <;> exact tmp_ne hv hw h _ _ (h''.symm.trans h')

theorem emit_all (f : Formatter ℓ μ κ) (L R : Nat) (dir : Str) {rowv colv : Vocab κ} (hrw : Constructed rowv)
    (hr : rowv.freq ≠ []) (hc : Constructed colv) (ws : List (Share ℓ)) (hs : ∀ w ∈ ws, '/' ∉ w.1)
    (hd : ws.Pairwise (fun v w => v.1 ≠ w.1)) (st : FS κ Int × List (Option Str)) :
    ∃ fs', ws.foldl (fun st w => emitTmp dir rowv colv st w.1 (shareData f L R rowv colv w)) st =
        (fs', st.2 ++ ws.flatMap (entryOf f L R dir rowv colv)) ∧
      (∀ w ∈ ws, Counted f L R rowv colv w → ∃ m, IsCounts f L R rowv colv w.2 m ∧ Holds fs' (tmpName dir w.1) m) ∧
      ∀ p, (∀ w ∈ ws, Counted f L R rowv colv w → ¬IsTmp dir w p) → fs' p = st.1 p := by
  induction ws generalizing st with
  | nil => exact ⟨st.1, by simp, by simp, by simp⟩
  | cons w ws ih =>
    rw [List.pairwise_cons] at hd
    rw [List.foldl_cons]
    obtain ⟨fs', h1, h2, h3⟩ := ih (fun v hv => hs v (by simp [hv])) hd.2
      (emitTmp dir rowv colv st w.1 (shareData f L R rowv colv w))
    refine ⟨fs', ?_, ?_, ?_⟩
    · rw [h1, List.flatMap_cons, ← List.append_assoc]
      congr 2
      unfold entryOf
      rcases emit_one f L R dir hrw hr hc st w with ⟨a, b, _⟩ | ⟨a, b⟩
      · rw [b, if_pos a]
      · rw [b, if_neg a]
    · intro v hv hpos
      rcases List.mem_cons.1 hv with rfl | hv
      · rcases emit_one f L R dir hrw hr hc st v with ⟨a, _, ⟨m, b1, b2⟩, _⟩ | ⟨a, _⟩
        · refine ⟨m, b1, ?_⟩
          have key : ∀ p, IsTmp dir v p → fs' p = (emitTmp dir rowv colv st v.1 (shareData f L R rowv colv v)).1 p :=
            fun p hp => h3 p (fun u hu _ => tmp_other (hs v (by simp)) (hs u (by simp [hu])) (hd.1 u hu) hp)
          obtain ⟨c1, s, c2, c3, c4⟩ := b2
          exact ⟨(key _ (Or.inl rfl)).trans c1, s, c2, c3, (key _ (Or.inr rfl)).trans c4⟩
        · exact absurd hpos a
      · exact h2 v hv hpos
    · intro p hp
      rw [h3 p (fun v hv => hp v (by simp [hv]))]
      rcases emit_one f L R dir hrw hr hc st w with ⟨a, _, _, b⟩ | ⟨_, b⟩
      · exact b p (hp w (by simp) a)
      · rw [b]

/-! ### The parent -/

theorem collect_all (f : Formatter ℓ μ κ) (L R : Nat) (dir : Str) {rowv colv : Vocab κ}
    (ws : List (Share ℓ)) (hs : ∀ w ∈ ws, '/' ∉ w.1) (hd : ws.Pairwise (fun v w => v.1 ≠ w.1)) (fs : FS κ Int)
    (hf : ∀ w ∈ ws, Counted f L R rowv colv w → ∃ m, IsCounts f L R rowv colv w.2 m ∧ Holds fs (tmpName dir w.1) m)
    (done : List (List ℓ)) (acc : Option (Mtx κ Int)) (hacc : IsResult f L R rowv colv done acc) :
    ∃ fs' res, (ws.flatMap (entryOf f L R dir rowv colv)).foldlM collectOne (fs, acc) = .ok (fs', res) ∧
      IsResult f L R rowv colv (done ++ (ws.map Prod.snd).flatten) res ∧
      (∀ w ∈ ws, Counted f L R rowv colv w → ∀ p, IsTmp dir w p → fs' p = none) ∧
      ∀ p, (∀ w ∈ ws, Counted f L R rowv colv w → ¬IsTmp dir w p) → fs' p = fs p := by
  induction ws generalizing fs done acc with
  | nil => exact ⟨fs, acc, rfl, by simpa using hacc, by simp, by simp⟩
  | cons w ws ih =>
    rw [List.pairwise_cons] at hd
    rw [List.flatMap_cons, List.foldlM_append, List.map_cons, List.flatten_cons, ← List.append_assoc]
    have hs' : ∀ v ∈ ws, '/' ∉ v.1 := fun v hv => hs v (by simp [hv])
    by_cases hpos : Counted f L R rowv colv w
    · obtain ⟨m, hm, hh⟩ := hf w (by simp) hpos
      obtain ⟨t, ht, hsame⟩ := load_holds (tmp_ext dir w.1) hm.valid hh
      have hct := counts_same f L R hm hsame
      have hpos' : ∃ t c, 0 < totalCount f L R rowv colv (done ++ w.2) t c := by
        obtain ⟨t, c, h⟩ := hpos
        exact ⟨t, c, by rw [totalCount_append]; omega⟩
      have key : ∃ r, mergeRes acc (.sub t) = .ok r ∧ IsResult f L R rowv colv (done ++ w.2) r := by
        cases acc with
        | none =>
          have h0 : ∀ t c, totalCount f L R rowv colv done t c = 0 := hacc
          exact ⟨some t, rfl, isCounts_zero f L R (fun t c => by rw [totalCount_append, h0, zero_add]) hct, hpos'⟩
        | some a =>
          obtain ⟨u, hu, hc⟩ := merge_counts f L R hacc.1 hct
          exact ⟨some u, by simp [mergeRes, hu, Except.map], hc, hpos'⟩
      obtain ⟨r, hr1, hr2⟩ := key
      have hgone : ∀ p, ((fs.remove (tmpName dir w.1 ++ extMeta)).remove (tmpName dir w.1 ++ extNpz)) p =
          if p = tmpName dir w.1 ++ extMeta ∨ p = tmpName dir w.1 ++ extNpz then none else fs p := by
        intro p
        unfold FS.remove
        by_cases h1 : p = tmpName dir w.1 ++ extNpz
        · simp [h1]
        · by_cases h2 : p = tmpName dir w.1 ++ extMeta
          · simp [h2]
          · simp [h1, h2]
      have hone : collectOne (fs, acc) (some (tmpName dir w.1)) =
          .ok ((fs.remove (tmpName dir w.1 ++ extMeta)).remove (tmpName dir w.1 ++ extNpz), r) := by
        unfold collectOne
        simp only [ht, hr1]
      have hkeep : ∀ v ∈ ws, ∀ p, IsTmp dir v p →
          ((fs.remove (tmpName dir w.1 ++ extMeta)).remove (tmpName dir w.1 ++ extNpz)) p = fs p := by
        intro v hv p hp
        rw [hgone]
        exact if_neg (tmp_other (hs' v hv) (hs w (by simp)) (Ne.symm (hd.1 v hv)) hp)
      obtain ⟨fs', res, e1, e2, e3, e4⟩ := ih hs' hd.2
        ((fs.remove (tmpName dir w.1 ++ extMeta)).remove (tmpName dir w.1 ++ extNpz)) (by
          intro v hv hp
          obtain ⟨n, n1, n2, s, n3, n4, n5⟩ := hf v (by simp [hv]) hp
          exact ⟨n, n1, (hkeep v hv _ (Or.inl rfl)).trans n2, s, n3, n4, (hkeep v hv _ (Or.inr rfl)).trans n5⟩)
        (done ++ w.2) r hr2
      refine ⟨fs', res, ?_, e2, ?_, ?_⟩
      · unfold entryOf
        rw [if_pos hpos]
        simp only [List.foldlM_cons, List.foldlM_nil, hone]
        exact e1
      · intro v hv hp p hpt
        rcases List.mem_cons.1 hv with rfl | hv
        · rw [e4 p (fun u hu _ => tmp_other (hs v (by simp)) (hs' u hu) (hd.1 u hu) hpt), hgone]
          exact if_pos hpt
        · exact e3 v hv hp p hpt
      · intro p hp
        rw [e4 p (fun v hv => hp v (by simp [hv])), hgone]
        exact if_neg (hp w (by simp) hpos)
    · have hz : ∀ t c, totalCount f L R rowv colv w.2 t c = 0 := by
        intro t c
        by_contra h
        exact hpos ⟨t, c, Nat.pos_of_ne_zero h⟩
      have hk : (entryOf f L R dir rowv colv w).foldlM collectOne (fs, acc) = .ok (fs, acc) := by
        unfold entryOf
        rw [if_neg hpos]
        split <;> rfl
      rw [hk]
      have hr2 : IsResult f L R rowv colv (done ++ w.2) acc := by
        have e : ∀ t c, totalCount f L R rowv colv done t c = totalCount f L R rowv colv (done ++ w.2) t c := by
          intro t c; rw [totalCount_append, hz, add_zero]
        cases acc with
        | none => intro t c; rw [← e]; exact hacc t c
        | some a =>
          refine ⟨isCounts_zero f L R e hacc.1, ?_⟩
          obtain ⟨t, c, h⟩ := hacc.2
          exact ⟨t, c, by rw [← e]; exact h⟩
      obtain ⟨fs', res, e1, e2, e3, e4⟩ := ih hs' hd.2 fs (fun v hv => hf v (by simp [hv])) (done ++ w.2) acc hr2
      refine ⟨fs', res, e1, e2, ?_, ?_⟩
      · intro v hv hp
        rcases List.mem_cons.1 hv with rfl | hv
        · exact absurd hp hpos
        · exact e3 v hv hp
      · exact fun p hp => e4 p (fun v hv => hp v (by simp [hv]))

/-! ## C236 -/

/-- **C236** while no other handler is constructed: whatever lies in the file system before, however the files of the corpus
are shared out among the workers, and in whatever order their results arrive, the parent ends without an error; it returns
`None` exactly when no wanted pair occurs in the corpus; otherwise it returns the matrix with the row vocabulary as rows, the
column vocabulary (or the occurring collocates) as columns and the sums over all files as entries.  All temporary files of this
run are removed, and no other file is touched.  The process ids are different and have no slash. -/
theorem C236_counts_partial (f : Formatter ℓ μ κ) (L R : Nat) (dir : Str) (rowv colv : Vocab κ) (hrw : Constructed rowv)
    (hr : rowv.freq ≠ []) (hc : Constructed colv) (files : List (List ℓ)) (ws : List (Share ℓ))
    (hp : ((ws.map Prod.snd).flatten).Perm files) (hs : ∀ w ∈ ws, '/' ∉ w.1) (hd : (ws.map Prod.fst).Nodup) (fs : FS κ Int) :
    ∃ fs' res, collect (emitAll f L R dir rowv colv fs ws).1 (emitAll f L R dir rowv colv fs ws).2 = .ok (fs', res) ∧
      (res = none ↔ ∀ t c, totalCount f L R rowv colv files t c = 0) ∧
      (∀ m, res = some m → Valid m ∧ m.rows = itemList rowv ∧ m.cols.Pairwise (· ≤ ·) ∧
        (∀ c, c ∈ m.cols ↔ if colv.freq = [] then ∃ t, 0 < totalCount f L R rowv colv files t c else c ∈ colv.freq.keys) ∧
        ∀ t c, entry m t c = totalCount f L R rowv colv files t c) ∧
      (∀ w ∈ ws, (∃ t c, 0 < totalCount f L R rowv colv w.2 t c) →
        fs' (tmpName dir w.1 ++ extMeta) = none ∧ fs' (tmpName dir w.1 ++ extNpz) = none) ∧
      ∀ p, (∀ w ∈ ws, p ≠ tmpName dir w.1 ++ extMeta ∧ p ≠ tmpName dir w.1 ++ extNpz) → fs' p = fs p := by
  have hd' : ws.Pairwise (fun v w => v.1 ≠ w.1) := List.pairwise_map.1 hd
  obtain ⟨fs1, h1, h2, h3⟩ := emit_all f L R dir hrw hr hc ws hs hd' (fs, [])
  obtain ⟨fs', res, k1, k2, k3, k4⟩ := collect_all f L R dir ws hs hd' fs1 h2 [] none (by intro t c; simp [totalCount])
  have e : ∀ t c, totalCount f L R rowv colv ([] ++ (ws.map Prod.snd).flatten) t c = totalCount f L R rowv colv files t c :=
    fun t c => totalCount_perm f L R rowv colv (by simpa using hp) t c
  refine ⟨fs', res, ?_, ?_, ?_, ?_, ?_⟩
  · unfold emitAll
    rw [h1]
    simpa [collect] using k1
  · cases res with
    | none => exact ⟨fun _ t c => by rw [← e]; exact k2 t c, fun _ => rfl⟩
    | some m =>
      refine ⟨by simp, fun h => ?_⟩
      obtain ⟨t, c, h'⟩ := k2.2
      rw [e, h] at h'
      exact absurd h' (lt_irrefl _)
  · rintro m rfl
    have k := isCounts_zero f L R e k2.1
    exact ⟨k.valid, k.rows, k.sorted, k.cols, k.entry⟩
  · exact fun w hw hpos => ⟨k3 w hw hpos _ (Or.inl rfl), k3 w hw hpos _ (Or.inr rfl)⟩
  · intro p hpp
    have : ∀ w ∈ ws, Counted f L R rowv colv w → ¬IsTmp dir w p := fun w hw _ => by
      rintro (h | h)
      · exact (hpp w hw).1 h
      · exact (hpp w hw).2 h
    rw [k4 p this, h3 p this]

/-- The link with the workers of `Verif.Engine`: after any run without worker deaths there are shares of the files, one for
each result, whose results are those in the queue, so that `C236_counts_partial` applies to every assignment of process ids. -/
theorem C236_shares (f : Formatter ℓ μ κ) (L R : Nat) (rowv colv : Vocab κ) (W : Nat) (hW : 1 ≤ W) (files : List (List ℓ))
    (as : List Action) (s : State (List ℓ) (ColData κ) (ColRes κ)) (hcf : CrashFree as)
    (h : exec (colProg f L R rowv colv) as (start (colProg f L R rowv colv) W files) = some s) (hj : Joined s) :
    ∃ parts : List (List (List ℓ)), parts.flatten.Perm files ∧
      ∀ ws : List (Share ℓ), ws.map Prod.snd = parts →
        ((ws.map Prod.snd).flatten).Perm files ∧
        readAll s = ws.flatMap (fun w => colEmit rowv colv (shareData f L R rowv colv w)) := by
  obtain ⟨parts, _, hp, he⟩ := accumulate_results hW hcf h hj
  refine ⟨parts, hp, ?_⟩
  rintro ws rfl
  refine ⟨hp, ?_⟩
  unfold readAll
  rw [he, List.flatMap_map]
  rfl

/-- **C236 is false when another handler is constructed** between the writing and the reading, by this or another program of
the same user: the constructor empties the common directory, and if a worker has put the name of a file below it, the parent
fails with `ValueError` instead of returning counts. -/
theorem C236_false_clean (f : Formatter ℓ μ κ) (L R : Nat) (home sub : Str) (rowv colv : Vocab κ) (hrw : Constructed rowv)
    (hr : rowv.freq ≠ []) (hc : Constructed colv) (ws : List (Share ℓ)) (hs : ∀ w ∈ ws, '/' ∉ w.1)
    (hd : (ws.map Prod.fst).Nodup) (fs : FS κ Int) (hpos : ∃ w ∈ ws, ∃ t c, 0 < totalCount f L R rowv colv w.2 t c) :
    collect (cleanTmp home (emitAll f L R (home ++ '/' :: sub) rowv colv fs ws).1)
      (emitAll f L R (home ++ '/' :: sub) rowv colv fs ws).2 = .error .valueError := by
  have hd' : ws.Pairwise (fun v w => v.1 ≠ w.1) := List.pairwise_map.1 hd
  obtain ⟨fs1, h1, h2, h3⟩ := emit_all f L R (home ++ '/' :: sub) hrw hr hc ws hs hd' (fs, [])
  have hgone : ∀ pid e, cleanTmp home fs1 (tmpName (home ++ '/' :: sub) pid ++ e) = none := by
    intro pid e
    unfold cleanTmp
    refine if_pos ?_
    rw [List.isPrefixOf_iff_prefix]
    exact ⟨sub ++ ('/' :: (pid ++ '/' :: (['s', 'u', 'b', '.', '0'] ++ e))), by simp [tmpName]⟩
  have hload : ∀ pid, Matrix.load (cleanTmp home fs1) (tmpName (home ++ '/' :: sub) pid) false =
      (cleanTmp home fs1, .error .valueError) := by
    intro pid
    have hbase : loadBase (tmpName (home ++ '/' :: sub) pid) = tmpName (home ++ '/' :: sub) pid := by
      unfold loadBase; rw [if_neg (tmp_ext _ _)]
    unfold Matrix.load
    rw [hbase]
    simp only [Bool.false_eq_true, if_false]
    have : readParts (cleanTmp home fs1) (tmpName (home ++ '/' :: sub) pid) = .error .valueError := by
      unfold readParts
      rw [hgone, hgone]
      rfl
    rw [this]
  have key : ∀ vs : List (Share ℓ), (∃ w ∈ vs, Counted f L R rowv colv w) →
      (vs.flatMap (entryOf f L R (home ++ '/' :: sub) rowv colv)).foldlM collectOne (cleanTmp home fs1, none) =
        .error .valueError := by
    intro vs
    induction vs with
    | nil => rintro ⟨w, hw, _⟩; cases hw
    | cons v vs ih =>
      rintro ⟨w, hw, hcw⟩
      rw [List.flatMap_cons, List.foldlM_append]
      by_cases hv : Counted f L R rowv colv v
      · have : (entryOf f L R (home ++ '/' :: sub) rowv colv v).foldlM collectOne (cleanTmp home fs1, none) =
            .error .valueError := by
          unfold entryOf
          rw [if_pos hv, List.foldlM_cons]
          have : collectOne (cleanTmp home fs1, none) (some (tmpName (home ++ '/' :: sub) v.1)) = .error .valueError := by
            unfold collectOne
            simp only [hload]
          rw [this]
          rfl
        rw [this]
        rfl
      · have : (entryOf f L R (home ++ '/' :: sub) rowv colv v).foldlM collectOne (cleanTmp home fs1, none) =
            .ok (cleanTmp home fs1, none) := by
          unfold entryOf
          rw [if_neg hv]
          split <;> rfl
        rw [this]
        refine ih ?_
        rcases List.mem_cons.1 hw with rfl | hw
        · exact absurd hcw hv
        · exact ⟨w, hw, hcw⟩
  unfold emitAll
  rw [h1]
  simpa [collect] using key ws hpos

/-- **C236**, a handler constructed meanwhile that empties another directory does no harm: if no temporary file lies below
the emptied directory, the counts are the same. -/
theorem C236_elsewhere_partial (f : Formatter ℓ μ κ) (L R : Nat) (home dir : Str) (rowv colv : Vocab κ) (hrw : Constructed rowv)
    (hr : rowv.freq ≠ []) (hc : Constructed colv) (files : List (List ℓ)) (ws : List (Share ℓ))
    (hp : ((ws.map Prod.snd).flatten).Perm files) (hs : ∀ w ∈ ws, '/' ∉ w.1) (hd : (ws.map Prod.fst).Nodup) (fs : FS κ Int)
    (hout : ∀ w ∈ ws, ∀ e, ¬(home ++ ['/']) <+: (tmpName dir w.1 ++ e)) :
    ∃ fs' res, collect (cleanTmp home (emitAll f L R dir rowv colv fs ws).1) (emitAll f L R dir rowv colv fs ws).2 = .ok (fs', res) ∧
      (res = none ↔ ∀ t c, totalCount f L R rowv colv files t c = 0) ∧
      ∀ m, res = some m → m.rows = itemList rowv ∧ ∀ t c, entry m t c = totalCount f L R rowv colv files t c := by
  have hd' : ws.Pairwise (fun v w => v.1 ≠ w.1) := List.pairwise_map.1 hd
  obtain ⟨fs1, h1, h2, h3⟩ := emit_all f L R dir hrw hr hc ws hs hd' (fs, [])
  have hkeep : ∀ w ∈ ws, ∀ e, cleanTmp home fs1 (tmpName dir w.1 ++ e) = fs1 (tmpName dir w.1 ++ e) := by
    intro w hw e
    unfold cleanTmp
    refine if_neg ?_
    rw [List.isPrefixOf_iff_prefix]
    exact hout w hw e
  obtain ⟨fs', res, k1, k2, _, _⟩ := collect_all f L R dir ws hs hd' (cleanTmp home fs1) (by
    intro w hw hpos
    obtain ⟨m, m1, m2, s, m3, m4, m5⟩ := h2 w hw hpos
    exact ⟨m, m1, (hkeep w hw _).trans m2, s, m3, m4, (hkeep w hw _).trans m5⟩) [] none (by intro t c; simp [totalCount])
  have e : ∀ t c, totalCount f L R rowv colv ([] ++ (ws.map Prod.snd).flatten) t c = totalCount f L R rowv colv files t c :=
    fun t c => totalCount_perm f L R rowv colv (by simpa using hp) t c
  refine ⟨fs', res, ?_, ?_, ?_⟩
  · unfold emitAll
    rw [h1]
    simpa [collect] using k1
  · cases res with
    | none => exact ⟨fun _ t c => by rw [← e]; exact k2 t c, fun _ => rfl⟩
    | some m =>
      refine ⟨by simp, fun h => ?_⟩
      obtain ⟨t, c, h'⟩ := k2.2
      rw [e, h] at h'
      exact absurd h' (lt_irrefl _)
  · rintro m rfl
    have k := isCounts_zero f L R e k2.1
    exact ⟨k.rows, k.entry⟩

/-- Two workers with the files of the corpus of `Verif.Cooc.Props` meet the hypotheses, with counts in both. -/
example : Constructed rowv12 ∧ rowv12.freq ≠ [] ∧ ((([(['7'], [[1, 2, 3]]), (['8'], [[2, 1]])] : List (Share Nat)).map Prod.snd).flatten).Perm
      [[2, 1], [1, 2, 3]] ∧ (([(['7'], [[1, 2, 3]]), (['8'], [[2, 1]])] : List (Share Nat)).map Prod.fst).Nodup ∧
    0 < totalCount fmt 1 1 rowv12 Vocab.empty [[1, 2, 3]] 2 3 ∧ 0 < totalCount fmt 1 1 rowv12 Vocab.empty [[2, 1]] 2 1 ∧
    (emitAll fmt 1 1 ['t'] rowv12 Vocab.empty (fun _ => none) [(['7'], [[1, 2, 3]]), (['8'], [[2, 1]])]).2 =
      [some ['t', '/', '7', '/', 's', 'u', 'b', '.', '0'], some ['t', '/', '8', '/', 's', 'u', 'b', '.', '0']] ∧
    ∀ e, ¬(['u'] ++ ['/']) <+: (tmpName ['t'] ['7'] ++ e) := by
  refine ⟨⟨by unfold Dict.WF; decide, rfl⟩, by decide, by decide, by decide, by decide, by decide, rfl, ?_⟩
  intro e h
  simp [tmpName] at h

end Verif.Cooc
