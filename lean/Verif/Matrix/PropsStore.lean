import Verif.Matrix.Store
import Verif.Matrix.PropsSelect
import Mathlib.Algebra.BigOperators.Group.List.Lemmas

/-!
# Properties C28 and C57: saving and loading matrices
-/

namespace Verif.Matrix
open Verif.Py Verif.Vocab.Plain
set_option linter.unusedSectionVars false

variable {κ ν : Type} [LinearOrder κ]

/-! ### Path strings -/

theorem dir_base (p : Str) : dirPart p ++ basePart p = p := by
  unfold dirPart basePart
  rw [← List.reverse_append, List.takeWhile_append_dropWhile, List.reverse_reverse]

theorem splitext_append (p : Str) : (splitext p).1 ++ (splitext p).2 = p := by
  unfold splitext
  simp only
  split
  · simp
  · next c pre h =>
    split
    · have h1 := List.takeWhile_append_dropWhile (p := fun c => decide (c ≠ '.')) (l := (basePart p).reverse)
      have hc : c = '.' := by
        have := List.head?_dropWhile_not (fun c => decide (c ≠ '.')) (basePart p).reverse
        rw [h] at this
        simpa using this
      rw [h] at h1
      have h2 : basePart p = pre.reverse ++ c :: ((basePart p).reverse.takeWhile (fun c => decide (c ≠ '.'))).reverse := by
        have := congrArg List.reverse h1
        rw [List.reverse_reverse, List.reverse_append, List.reverse_cons, List.append_assoc] at this
        exact this.symm
      show dirPart p ++ pre.reverse ++ '.' :: _ = p
      conv_rhs => rw [← dir_base p, h2, hc]
      rw [List.append_assoc]
    · simp

theorem dirPart_append (p q : Str) (h : ∀ c ∈ q, c ≠ '/') : dirPart (p ++ q) = dirPart p := by
  unfold dirPart
  rw [List.reverse_append, List.dropWhile_append_of_pos]
  intro c hc
  simpa using h c (by simpa using hc)

theorem noSlash_meta : ∀ c ∈ extMeta, c ≠ '/' := by decide
theorem noSlash_npz : ∀ c ∈ extNpz, c ≠ '/' := by decide
theorem noSlash_npy : ∀ c ∈ extNpy, c ≠ '/' := by decide
theorem noSlash_pac : ∀ c ∈ extPac, c ≠ '/' := by decide

/-- Extracting next to the archive gives back the path of the member. -/
theorem extract_path (base e : Str) (he : ∀ c ∈ e, c ≠ '/') :
    dirPart (base ++ extPac) ++ basePart (base ++ e) = base ++ e := by
  rw [dirPart_append _ _ noSlash_pac, ← dirPart_append base e he, dir_base]

theorem ext_ne {e f : Str} (base : Str) (h : e ≠ f) : base ++ e ≠ base ++ f := by
  intro hc; exact h (List.append_cancel_left hc)

theorem saveBase_pack (name : Str) : saveBase name true = loadBase name := rfl

theorem zipName_eq (name : Str) : zipName name = loadBase name ++ extPac := by
  unfold zipName loadBase
  split
  · next h => conv_lhs => rw [← splitext_append name, h]
  · rfl

/-! ### The arrays of a compressed matrix -/

theorem getD_map_range (f : Nat → Nat) (n i : Nat) (h : i < n) : ((List.range n).map f).getD i 0 = f i := by
  rw [List.getD_eq_getElem?_getD, List.getElem?_map, List.getElem?_range h]; rfl

theorem blocks_length (s : Sp ν) : s.blocks.length = s.nMajor := by simp [Sp.blocks]

/-- Cutting the entry list at the boundaries gives the blocks. -/
theorem arrays_cut (s : Sp ν) (i : Nat) (hi : i < s.nMajor) :
    (((s.arrays.indices.zip s.arrays.data).take (s.arrays.indptr.getD (i + 1) 0)).drop (s.arrays.indptr.getD i 0)) =
      (s.data.filter (fun e => s.maj e.1 = i)).map (fun e => (s.mnr e.1, e.2)) := by
  have hm : ∀ (g : (Nat × Nat) × ν → Nat × ν) (l : List ((Nat × Nat) × ν)) (a b : Nat),
      ((l.map g).take b).drop a = ((l.take b).drop a).map g := by
    intro g l a b; rw [List.map_drop, List.map_take]
  unfold Sp.arrays
  simp only
  rw [getD_map_range _ _ _ (by omega), getD_map_range _ _ _ (by omega), List.zip_map', hm,
    List.drop_take_succ_flatten_eq_getElem s.blocks i (by rw [blocks_length]; exact hi)]
  simp [Sp.blocks]

/-- The entries found when the arrays are read as those of a csr matrix. -/
theorem toCsr_arrays (s : Sp ν) (h : s.nMajor = s.nr) :
    s.arrays.toCsr = .ok { fmt := .csr, nr := s.nr, nc := s.nc
                           data := (List.range s.nr).flatMap (fun i =>
                             (s.data.filter (fun e => s.maj e.1 = i)).map (fun e => ((i, s.mnr e.1), e.2))) } := by
  unfold Arrays.toCsr
  rw [if_pos (by simp [Sp.arrays, h])]
  congr 2
  show (List.range s.nr).flatMap _ = _
  refine List.flatMap_congr (fun i hi => ?_)
  rw [arrays_cut s i (by rw [h]; exact List.mem_range.1 hi), List.map_map]
  rfl

theorem toCsr_arrays_error (s : Sp ν) (h : s.nMajor ≠ s.nr) : s.arrays.toCsr = .error .valueError := by
  unfold Arrays.toCsr
  rw [if_neg (by simpa [Sp.arrays] using h)]

/-- What the arrays of a compressed matrix give when read back: a csr matrix of the same shape with the entry of
position `(major, minor)` at `(row, column)`. -/
theorem toCsr_spec {s : Sp ν} (hs : s.WF) (h : s.nMajor = s.nr) :
    ∃ t, s.arrays.toCsr = .ok t ∧ t.fmt = .csr ∧ t.nr = s.nr ∧ t.nc = s.nc ∧ t.WF ∧
      ∀ i j, t.stored i j = if s.fmt = .csc then s.stored j i else s.stored i j := by
  refine ⟨_, toCsr_arrays s h, rfl, rfl, rfl, ?_⟩
  have hmaj : ∀ p ∈ Dict.keys s.data, s.maj p < s.nr ∧ s.mnr p < s.nc := by
    intro p hp
    have hb := hs.bound p hp
    unfold Sp.maj Sp.mnr
    unfold Sp.nMajor at h
    cases hf : s.fmt <;> rw [hf] at h <;> simp only at h ⊢ <;> omega
  -- positions are determined by their coordinates
  have hinj : ∀ p q : Nat × Nat, s.maj p = s.maj q → s.mnr p = s.mnr q → p = q := by
    intro p q
    unfold Sp.maj Sp.mnr
    cases s.fmt <;> simp only <;> intro h1 h2 <;> exact Prod.ext (by assumption) (by assumption)
  let D := (List.range s.nr).flatMap (fun i =>
    (s.data.filter (fun e => s.maj e.1 = i)).map (fun e => ((i, s.mnr e.1), e.2)))
  have hmem : ∀ i j v, ((i, j), v) ∈ D ↔ ∃ p, (p, v) ∈ s.data ∧ s.maj p = i ∧ s.mnr p = j := by
    intro i j v
    simp only [D, List.mem_flatMap, List.mem_range, List.mem_map, List.mem_filter, decide_eq_true_eq, Prod.mk.injEq]
    constructor
    · rintro ⟨a, _, ⟨p, w⟩, ⟨hm, hp⟩, ⟨rfl, hj⟩, rfl⟩
      exact ⟨p, hm, hp, hj⟩
    · rintro ⟨p, hm, hp, hj⟩
      exact ⟨i, by rw [← hp]; exact (hmaj p (List.mem_map.2 ⟨_, hm, rfl⟩)).1, (p, v), ⟨hm, hp⟩, ⟨rfl, hj⟩, rfl⟩
  have hwf : Dict.WF D := by
    show ((List.flatMap _ _).map Prod.fst).Nodup
    rw [List.map_flatMap, List.nodup_flatMap]
    constructor
    · intro i _
      rw [List.map_map]
      have hnd : (s.data.filter (fun e => s.maj e.1 = i)).Pairwise (fun a b => a.1 ≠ b.1) := by
        have := hs.nodup
        rw [Dict.WF, Dict.keys, List.Nodup, List.pairwise_map] at this
        exact this.filter _
      rw [List.Nodup, List.pairwise_map]
      refine List.Pairwise.imp_of_mem ?_ hnd
      intro a b ha hb hne
      simp only [List.mem_filter, decide_eq_true_eq] at ha hb
      simp only [Function.comp, ne_eq, Prod.mk.injEq, true_and]
      exact fun he => hne (hinj _ _ (ha.2.trans hb.2.symm) he)
    · refine List.nodup_range.imp ?_
      intro i j hij
      simp only [Function.onFun, List.disjoint_left, List.map_map, List.mem_map, Function.comp]
      rintro p ⟨a, _, rfl⟩ ⟨b, _, hb⟩
      exact hij (congrArg Prod.fst hb).symm
  refine ⟨⟨hwf, ?_⟩, ?_⟩
  · intro p hp
    obtain ⟨e, he, rfl⟩ := List.mem_map.1 hp
    obtain ⟨q, hq, h1, h2⟩ := (hmem e.1.1 e.1.2 e.2).1 he
    have := hmaj q (List.mem_map.2 ⟨_, hq, rfl⟩)
    show e.1.1 < s.nr ∧ e.1.2 < s.nc
    omega
  · intro i j
    have key : ∀ p : Nat × Nat, s.maj p = i → s.mnr p = j → Dict.get? D (i, j) = s.data.get? p := by
      intro p hi hj
      ext v
      rw [Dict.get?_eq_some_iff hwf, hmem, Dict.get?_eq_some_iff hs.nodup]
      constructor
      · rintro ⟨q, hq, h1, h2⟩
        rw [← hinj q p (h1.trans hi.symm) (h2.trans hj.symm)]; exact hq
      · intro hm; exact ⟨p, hm, hi, hj⟩
    show Dict.get? D (i, j) = _
    split
    · next hf => exact key (j, i) (by simp [Sp.maj, hf]) (by simp [Sp.mnr, hf])
    · next hf =>
      refine key (i, j) ?_ ?_
      · unfold Sp.maj; split
        · contradiction
        · rfl
      · unfold Sp.mnr; split
        · contradiction
        · rfl

/-! ### C28 -/

/-- Specification: the file system holds no array file of the other kind under this base name. -/
def NoStale (fs : FS κ ν) (base : Str) (m : Mtx κ ν) : Prop :=
  match m.body with
  | .sp _ => True
  | .dn _ => fs (base ++ extNpz) = none

/-- The two files as `load` finds them, and the outcome of reading them. -/
theorem readParts_of {fs : FS κ ν} {base : Str} {m : Mtx κ ν} {ext : Str} {f : File κ ν}
    (hb : bodyFile m.body = .ok (ext, f)) (hi : fs (base ++ extMeta) = some (.info m.rows m.cols))
    (hf : fs (base ++ ext) = some f) (hst : ∀ d, m.body = .dn d → fs (base ++ extNpz) = none) :
    readParts fs base = match m.body with
      | .sp s => (s.arrays.toCsr).map (fun t => (base ++ ext, .sp t, m.rows, m.cols))
      | .dn d => .ok (base ++ ext, .dn d, m.rows, m.cols) := by
  unfold readParts
  unfold bodyFile at hb
  cases hm : m.body with
  | sp s =>
    rw [hm] at hb
    simp only at hb
    split at hb
    · cases hb
    · cases hb
      rw [hf]
      simp only [Option.isSome_some, if_true, bind, Except.bind, hi, hf]
      cases s.arrays.toCsr <;> rfl
  | dn d =>
    rw [hm] at hb
    cases hb
    rw [hst d hm, hf]
    simp only [Option.isSome_none, Option.isSome_some, Bool.false_eq_true, if_false, if_true, bind, Except.bind, hi, hf]

theorem ext_distinct : extMeta ≠ extNpz ∧ extMeta ≠ extNpy ∧ extMeta ≠ extPac ∧ extNpz ≠ extNpy ∧ extNpz ≠ extPac ∧
    extNpy ≠ extPac := by decide

theorem bodyFile_ext {b : Body ν} {ext : Str} {f : File κ ν} (h : bodyFile b = .ok (ext, f)) :
    ((∃ s, b = .sp s ∧ s.fmt ≠ .coo ∧ f = .npz s.arrays) ∧ ext = extNpz) ∨ ((∃ d, b = .dn d ∧ f = .npy d) ∧ ext = extNpy) := by
  unfold bodyFile at h
  cases b with
  | sp s =>
    simp only at h
    split at h
    · cases h
    · next hf => cases h; exact Or.inl ⟨⟨s, rfl, hf, rfl⟩, rfl⟩
  | dn d => cases h; exact Or.inr ⟨⟨d, rfl, rfl⟩, rfl⟩

/-- What reading the files of `m` back gives: the parts of the loaded matrix. -/
def reread [AllClose ν] (m : Mtx κ ν) : Except Err (Mtx κ ν) :=
  match m.body with
  | .sp s => do
    let t ← s.arrays.toCsr
    mkMtx (.sp t) m.rows m.cols
  | .dn d => mkMtx (.dn d) m.rows m.cols

/-- Loading what was saved packed, in any file system without a stale array file. -/
theorem load_save_packed [AllClose ν] (fs : FS κ ν) (m : Mtx κ ν) (name : Str) {ext : Str} {f : File κ ν}
    (hb : bodyFile m.body = .ok (ext, f)) (hst : NoStale fs (loadBase name) m) :
    (save fs m name true).2 = .ok () ∧ (load (save fs m name true).1 name true).2 = reread m := by
  obtain ⟨d1, d2, d3, d4, d5, d6⟩ := ext_distinct
  have hx := bodyFile_ext hb
  have hme : extMeta ≠ ext := by rcases hx with ⟨_, rfl⟩ | ⟨_, rfl⟩ <;> assumption
  have hpe : extPac ≠ ext := by
    rcases hx with ⟨_, rfl⟩ | ⟨_, rfl⟩
    · exact d5.symm
    · exact d6.symm
  have hns : ∀ c ∈ ext, c ≠ '/' := by
    rcases hx with ⟨_, rfl⟩ | ⟨_, rfl⟩
    · exact noSlash_npz
    · exact noSlash_npy
  set base := loadBase name with hbase
  set fs1 : FS κ ν := (((fs.write (base ++ extMeta) (.info m.rows m.cols)).write (base ++ ext) f).write (base ++ extPac)
      (.zip [(basePart (base ++ extMeta), .info m.rows m.cols), (basePart (base ++ ext), f)])) with hfs1
  have hs : save fs m name true = ((fs1.remove (base ++ extMeta)).remove (base ++ ext), .ok ()) := by
    unfold save
    rw [saveBase_pack, zipName_eq, ← hbase]
    simp only [hb, if_true]
    rfl
  rw [hs]
  refine ⟨rfl, ?_⟩
  set fs2 := (fs1.remove (base ++ extMeta)).remove (base ++ ext) with hfs2
  have hzip : fs2 (base ++ extPac) = some (.zip [(basePart (base ++ extMeta), .info m.rows m.cols), (basePart (base ++ ext), f)]) := by
    simp only [hfs2, FS.remove, hfs1, FS.write, ext_ne base hpe, ext_ne base d3.symm, if_false, if_true]
  have hun : unpack fs2 base = .ok ((fs2.write (base ++ extMeta) (.info m.rows m.cols)).write (base ++ ext) f) := by
    unfold unpack
    rw [hzip]
    simp only [extractAll, List.foldl_cons, List.foldl_nil, extract_path base extMeta noSlash_meta, extract_path base ext hns]
  set fs3 := (fs2.write (base ++ extMeta) (.info m.rows m.cols)).write (base ++ ext) f with hfs3
  have hrp := readParts_of (fs := fs3) (base := base) hb
    (by simp only [hfs3, FS.write, ext_ne base hme, if_false, if_true])
    (by simp only [hfs3, FS.write, if_true])
    (by
      intro d hd
      have he : ext = extNpy := by
        rcases hx with ⟨⟨s, hs, _⟩, _⟩ | ⟨_, he⟩
        · rw [hd] at hs; cases hs
        · exact he
      unfold NoStale at hst
      rw [hd] at hst
      simp only at hst
      subst he
      simp only [hfs3, hfs2, hfs1, FS.write, FS.remove, ext_ne base d4, ext_ne base d1.symm, ext_ne base d5, if_false]
      exact hst)
  unfold load
  rw [← hbase]
  simp only [if_true, hun]
  unfold reread
  cases hm : m.body with
  | sp s =>
    rw [hm] at hrp
    simp only at hrp
    cases hc : s.arrays.toCsr <;> rw [hc] at hrp <;> simp only [Except.map] at hrp <;>
      simp only [hrp, hc, bind, Except.bind]
  | dn d => rw [hm] at hrp; rw [hrp]

/-- Loading what was saved unpacked under a name without the extension `.pac`. -/
theorem load_save_unpacked [AllClose ν] (fs : FS κ ν) (m : Mtx κ ν) (name : Str) (hn : (splitext name).2 ≠ extPac)
    {ext : Str} {f : File κ ν} (hb : bodyFile m.body = .ok (ext, f)) (hst : NoStale fs name m) :
    (save fs m name false).2 = .ok () ∧ (load (save fs m name false).1 name false).2 = reread m := by
  obtain ⟨d1, d2, d3, d4, d5, d6⟩ := ext_distinct
  have hx := bodyFile_ext hb
  have hme : extMeta ≠ ext := by rcases hx with ⟨_, rfl⟩ | ⟨_, rfl⟩ <;> assumption
  have hbase : loadBase name = name := by unfold loadBase; rw [if_neg hn]
  have hs : save fs m name false = ((fs.write (name ++ extMeta) (.info m.rows m.cols)).write (name ++ ext) f, .ok ()) := by
    unfold save saveBase
    simp only [hb, Bool.false_eq_true, if_false]
  rw [hs]
  refine ⟨rfl, ?_⟩
  set fs3 := (fs.write (name ++ extMeta) (.info m.rows m.cols)).write (name ++ ext) f with hfs3
  have hrp := readParts_of (fs := fs3) (base := name) hb
    (by simp only [hfs3, FS.write, ext_ne name hme, if_false, if_true])
    (by simp only [hfs3, FS.write, if_true])
    (by
      intro d hd
      have he : ext = extNpy := by
        rcases hx with ⟨⟨s, hs, _⟩, _⟩ | ⟨_, he⟩
        · rw [hd] at hs; cases hs
        · exact he
      unfold NoStale at hst
      rw [hd] at hst
      simp only at hst
      subst he
      simp only [hfs3, FS.write, ext_ne name d4, ext_ne name d1.symm, if_false]
      exact hst)
  unfold load
  rw [hbase]
  simp only [Bool.false_eq_true, if_false]
  unfold reread
  cases hm : m.body with
  | sp s =>
    rw [hm] at hrp
    simp only at hrp
    cases hc : s.arrays.toCsr <;> rw [hc] at hrp <;> simp only [Except.map] at hrp <;>
      simp only [hrp, hc, bind, Except.bind]
  | dn d => rw [hm] at hrp; rw [hrp]

/-- A matrix that `mkMtx` accepts, i.e. that exists as an object (a dense symmetric one has equal item lists). -/
def Constructible [AllClose ν] (m : Mtx κ ν) : Prop := mkMtx m.body m.rows m.cols = .ok m

/-- Specification: the same items, the same format, the same stored entries and the same values by position. -/
structure SameMatrix [Zero ν] (m t : Mtx κ ν) : Prop where
  rows : m.rows = t.rows
  cols : m.cols = t.cols
  vals : ∀ i j, i < m.rows.length → j < m.cols.length → m.body.val i j = t.body.val i j
  stored : ∀ s, m.body = .sp s → ∃ u, t.body = .sp u ∧ u.fmt = s.fmt ∧ u.nr = s.nr ∧ u.nc = s.nc ∧ u.WF ∧
    ∀ i j, u.stored i j = s.stored i j
  dense : ∀ d, m.body = .dn d → t.body = .dn d

theorem reread_ok [Zero ν] [AllClose ν] {m : Mtx κ ν} (hm : Constructible m) (hv : Valid m)
    (hf : ∀ s, m.body = .sp s → s.fmt = .csr) : ∃ t, reread m = .ok t ∧ SameMatrix m t := by
  unfold reread
  cases hb : m.body with
  | sp s =>
    obtain ⟨t, ht, hfmt, hnr, hnc, hwf, hst⟩ := toCsr_spec (hv.sp s hb) (by unfold Sp.nMajor; rw [hf s hb])
    have hst' : ∀ i j, t.stored i j = s.stored i j := by
      intro i j; rw [hst, if_neg (by rw [hf s hb]; decide)]
    have h1 := hv.nr
    have h2 := hv.nc
    rw [hb] at h1 h2
    refine ⟨⟨.sp t, m.rows, m.cols⟩, ?_, rfl, rfl, ?_, ?_, ?_⟩
    · simp only [ht, bind, Except.bind]
      exact mkMtx_sp (hnr.trans h1) (hnc.trans h2)
    · intro i j _ _
      rw [hb]
      show s.val i j = t.val i j
      unfold Sp.val; rw [hst']
    · intro s' hs'
      rw [hb] at hs'
      cases hs'
      exact ⟨t, rfl, hfmt.trans (hf s hb).symm, hnr, hnc, hwf, hst'⟩
    · intro d hd; rw [hb] at hd; cases hd
  | dn d =>
    refine ⟨m, ?_, rfl, rfl, fun _ _ _ _ => rfl, ?_, fun d hd => hd⟩
    · unfold Constructible at hm
      rw [hb] at hm
      exact hm
    · intro s hs; rw [hb] at hs; cases hs

/-- **C28, partial.** A csr or dense matrix saved and loaded under the same name and options (packed under any name, or
unpacked under a name without the extension `.pac`) comes back with the same items, storage format, stored entries and
values, whatever the file system held before, except that for a dense matrix no array file `<base>.npz` may lie there.
Missing from the full claim, because false: `C28_false_stale`, `C28_false_csc`, `C28_coo_fails`, `C28_false_pac_name`. -/
theorem C28_roundtrip_partial [Zero ν] [AllClose ν] (fs : FS κ ν) (m : Mtx κ ν) (name : Str) (pack : Bool)
    (hm : Constructible m) (hv : Valid m) (hf : ∀ s, m.body = .sp s → s.fmt = .csr)
    (hn : pack = false → (splitext name).2 ≠ extPac) (hst : NoStale fs (loadBase name) m) :
    (save fs m name pack).2 = .ok () ∧
      ∃ t, (load (save fs m name pack).1 name pack).2 = .ok t ∧ SameMatrix m t := by
  obtain ⟨t, ht, hsame⟩ := reread_ok hm hv hf
  have hb : ∃ ext f, bodyFile (κ := κ) m.body = .ok (ext, f) := by
    unfold bodyFile
    cases hb : m.body with
    | sp s => exact ⟨_, _, if_neg (by rw [hf s hb]; decide)⟩
    | dn d => exact ⟨_, _, rfl⟩
  obtain ⟨ext, f, hb⟩ := hb
  cases pack with
  | true =>
    obtain ⟨h1, h2⟩ := load_save_packed fs m name hb hst
    exact ⟨h1, t, h2.trans ht, hsame⟩
  | false =>
    have hn' := hn rfl
    have hbase : loadBase name = name := by unfold loadBase; rw [if_neg hn']
    rw [hbase] at hst
    obtain ⟨h1, h2⟩ := load_save_unpacked fs m name hn' hb hst
    exact ⟨h1, t, h2.trans ht, hsame⟩

/-- **C28: what happens to a csc matrix**, such as the result of `transpose`: the load fails unless the matrix is square,
and then gives the transposed array under the untransposed item lists. -/
theorem C28_csc_outcome [Zero ν] [AllClose ν] (fs : FS κ ν) (m : Mtx κ ν) (name : Str) (s : Sp ν) (hb : m.body = .sp s)
    (hs : s.fmt = .csc) (hv : Valid m) :
    (save fs m name true).2 = .ok () ∧
    (s.nr ≠ s.nc → (load (save fs m name true).1 name true).2 = .error .valueError) ∧
    (s.nr = s.nc → ∃ t u, (load (save fs m name true).1 name true).2 = .ok t ∧ t.rows = m.rows ∧ t.cols = m.cols ∧
      t.body = .sp u ∧ ∀ i j, u.stored i j = s.stored j i) := by
  have hbf : bodyFile (κ := κ) m.body = .ok (extNpz, .npz s.arrays) := by
    unfold bodyFile; rw [hb]; exact if_neg (by rw [hs]; decide)
  obtain ⟨h1, h2⟩ := load_save_packed fs m name hbf (by unfold NoStale; rw [hb]; trivial)
  refine ⟨h1, ?_, ?_⟩
  · intro hne
    rw [h2]
    unfold reread
    rw [hb]
    simp only [toCsr_arrays_error s (by unfold Sp.nMajor; rw [hs]; exact fun h => hne h.symm), bind, Except.bind]
  · intro heq
    obtain ⟨t, ht, _, hnr, hnc, _, hst⟩ := toCsr_spec (hv.sp s hb) (by unfold Sp.nMajor; rw [hs]; exact heq.symm)
    have e1 := hv.nr
    have e2 := hv.nc
    rw [hb] at e1 e2
    refine ⟨⟨.sp t, m.rows, m.cols⟩, t, ?_, rfl, rfl, rfl, ?_⟩
    · rw [h2]
      unfold reread
      rw [hb]
      simp only [ht, bind, Except.bind]
      exact mkMtx_sp (hnr.trans e1) (hnc.trans e2)
    · intro i j; rw [hst, if_pos hs]

/-- **C28: a coo matrix**, such as the result of `concatenate` along the columns, cannot be saved. -/
theorem C28_coo_fails (fs : FS κ ν) (m : Mtx κ ν) (name : Str) (pack : Bool) (s : Sp ν) (hb : m.body = .sp s)
    (hs : s.fmt = .coo) : (save fs m name pack).2 = .error .attributeError := by
  unfold save bodyFile
  simp only [hb, hs, if_true]

/-- **C28: the full claim is false for an unpacked matrix under a name with extension `.pac`**: `load` looks for
`<base>.npz` while `save` wrote `<base>.pac.npz`. In a directory without other files the load fails. -/
theorem C28_false_pac_name [AllClose ν] (m : Mtx κ ν) (name : Str) (hn : (splitext name).2 = extPac) :
    (load (save (fun _ => none) m name false).1 name false).2 = .error .valueError := by
  have hbase : loadBase name = (splitext name).1 := by unfold loadBase; rw [if_pos hn]
  have hname : name = (splitext name).1 ++ extPac := by conv_lhs => rw [← splitext_append name, hn]
  set base := (splitext name).1 with hb
  have key : ∀ (fs : FS κ ν), fs (base ++ extNpz) = none → fs (base ++ extNpy) = none →
      (load fs name false).2 = .error .valueError := by
    intro fs h1 h2
    unfold load readParts
    rw [hbase]
    simp only [Bool.false_eq_true, if_false, h1, h2, Option.isSome_none, bind, Except.bind]
  have hd : ∀ e f : Str, e ≠ extPac ++ f → base ++ e ≠ name ++ f := by
    intro e f he hc
    rw [hname, List.append_assoc] at hc
    exact he (List.append_cancel_left hc)
  apply key
  · unfold save saveBase
    cases hbf : bodyFile (κ := κ) m.body with
    | error e =>
      simp only [Bool.false_eq_true, if_false, FS.write, hd extNpz extMeta (by decide)]
    | ok x =>
      obtain ⟨ext, f⟩ := x
      have : extNpz ≠ extPac ++ ext := by
        rcases bodyFile_ext hbf with ⟨_, rfl⟩ | ⟨_, rfl⟩ <;> decide
      simp only [Bool.false_eq_true, if_false, FS.write, hd extNpz extMeta (by decide), hd extNpz ext this]
  · unfold save saveBase
    cases hbf : bodyFile (κ := κ) m.body with
    | error e =>
      simp only [Bool.false_eq_true, if_false, FS.write, hd extNpy extMeta (by decide)]
    | ok x =>
      obtain ⟨ext, f⟩ := x
      have : extNpy ≠ extPac ++ ext := by
        rcases bodyFile_ext hbf with ⟨_, rfl⟩ | ⟨_, rfl⟩ <;> decide
      simp only [Bool.false_eq_true, if_false, FS.write, hd extNpy extMeta (by decide), hd extNpy ext this]

/-- **C28: what happens to a dense matrix when a sparse one was left unpacked under the same base name**: the arrays of the
old matrix are loaded under the item lists of the new one. -/
theorem C28_stale_outcome [AllClose ν] (fs : FS κ ν) (m : Mtx κ ν) (name : Str) (d : Dn ν) (hb : m.body = .dn d)
    (a : Arrays ν) (hst : fs (loadBase name ++ extNpz) = some (.npz a)) :
    (save fs m name true).2 = .ok () ∧
    (load (save fs m name true).1 name true).2 = (a.toCsr).bind (fun t => mkMtx (.sp t) m.rows m.cols) := by
  obtain ⟨d1, d2, d3, d4, d5, d6⟩ := ext_distinct
  set base := loadBase name with hbase
  set fs1 : FS κ ν := (((fs.write (base ++ extMeta) (.info m.rows m.cols)).write (base ++ extNpy) (.npy d)).write
      (base ++ extPac) (.zip [(basePart (base ++ extMeta), .info m.rows m.cols), (basePart (base ++ extNpy), .npy d)])) with hfs1
  have hs : save fs m name true = ((fs1.remove (base ++ extMeta)).remove (base ++ extNpy), .ok ()) := by
    unfold save bodyFile
    rw [saveBase_pack, zipName_eq, ← hbase]
    simp only [hb, if_true]
    rfl
  rw [hs]
  refine ⟨rfl, ?_⟩
  set fs2 := (fs1.remove (base ++ extMeta)).remove (base ++ extNpy) with hfs2
  have hzip : fs2 (base ++ extPac) =
      some (.zip [(basePart (base ++ extMeta), .info m.rows m.cols), (basePart (base ++ extNpy), .npy d)]) := by
    simp only [hfs2, FS.remove, hfs1, FS.write, ext_ne base d6.symm, ext_ne base d3.symm, if_false, if_true]
  have hun : unpack fs2 base = .ok ((fs2.write (base ++ extMeta) (.info m.rows m.cols)).write (base ++ extNpy) (.npy d)) := by
    unfold unpack
    rw [hzip]
    simp only [extractAll, List.foldl_cons, List.foldl_nil, extract_path base extMeta noSlash_meta,
      extract_path base extNpy noSlash_npy]
  set fs3 := (fs2.write (base ++ extMeta) (.info m.rows m.cols)).write (base ++ extNpy) (.npy d) with hfs3
  have h1 : fs3 (base ++ extNpz) = some (.npz a) := by
    simp only [hfs3, hfs2, hfs1, FS.write, FS.remove, ext_ne base d4, ext_ne base d1.symm, ext_ne base d5, if_false]
    exact hst
  have h2 : fs3 (base ++ extMeta) = some (.info m.rows m.cols) := by
    simp only [hfs3, FS.write, ext_ne base d2, if_false, if_true]
  have hrp : readParts fs3 base = (a.toCsr).map (fun t => (base ++ extNpz, .sp t, m.rows, m.cols)) := by
    unfold readParts
    simp only [h1, h2, Option.isSome_some, if_true, bind, Except.bind]
    cases a.toCsr <;> rfl
  unfold load
  rw [← hbase]
  simp only [if_true, hun]
  cases hc : a.toCsr <;> rw [hc] at hrp <;> simp only [Except.map] at hrp <;> simp only [hrp, Except.bind]

/-- A concrete dense matrix and a stale sparse one. -/
def staleFS : FS Nat Int := fun p =>
  if p = "m.npz".toList then some (.npz { data := [7], indices := [0], indptr := [0, 1], nr := 1, nc := 1 }) else none

def freshMtx : Mtx Nat Int := ⟨.dn { nr := 1, nc := 1, elem := fun _ _ => 5 }, [0], [0]⟩

/-- **C28: the full claim is false**: the value 5 is saved, the value 7 comes back. -/
theorem C28_false_stale : Constructible freshMtx ∧ Valid freshMtx ∧ (save staleFS freshMtx "m".toList true).2 = .ok () ∧
    ∃ t, (load (save staleFS freshMtx "m".toList true).1 "m".toList true).2 = .ok t ∧
      entry freshMtx 0 0 = 5 ∧ entry t 0 0 = 7 := by
  refine ⟨rfl, ⟨rfl, rfl, by decide, by decide, by intro s hs; cases hs⟩, ?_⟩
  obtain ⟨h1, h2⟩ := C28_stale_outcome staleFS freshMtx "m".toList _ rfl
    { data := [7], indices := [0], indptr := [0, 1], nr := 1, nc := 1 } (by rfl)
  exact ⟨h1, ⟨.sp { fmt := .csr, nr := 1, nc := 1, data := [((0, 0), 7)] }, [0], [0]⟩, by rw [h2]; rfl, by rfl, by rfl⟩

/-- A concrete square matrix in csc format with row 0 = (0, 9), row 1 = (0, 0). -/
def cscMtx : Mtx Nat Int := ⟨.sp { fmt := .csc, nr := 2, nc := 2, data := [((0, 1), 9)] }, [10, 11], [20, 21]⟩

/-- **C28: the full claim is false** for csc matrices: the entry (10, 21) comes back as (11, 20). -/
theorem C28_false_csc (fs : FS Nat Int) : Valid cscMtx ∧ Constructible cscMtx ∧
    ∃ t, (load (save fs cscMtx "m".toList true).1 "m".toList true).2 = .ok t ∧ t.rows = cscMtx.rows ∧ t.cols = cscMtx.cols ∧
      entry cscMtx 10 21 = 9 ∧ entry t 10 21 = 0 ∧ entry t 11 20 = 9 := by
  have hv : Valid cscMtx := ⟨rfl, rfl, by decide, by decide, by
    intro s hs; cases hs
    exact ⟨by unfold Dict.WF; decide, by decide⟩⟩
  refine ⟨hv, rfl, ?_⟩
  obtain ⟨_, _, h3⟩ := C28_csc_outcome fs cscMtx "m".toList _ rfl rfl hv
  obtain ⟨⟨b, rows, cols⟩, u, ht, hr, hc, hb, hst⟩ := h3 rfl
  simp only at hr hc hb
  subst hr hc hb
  refine ⟨_, ht, rfl, rfl, by rfl, ?_, ?_⟩
  · show (u.stored 0 1).getD 0 = 0
    rw [hst]; rfl
  · show (u.stored 1 0).getD 0 = 9
    rw [hst]; rfl

/-- The hypotheses of `C28_roundtrip_partial` are met by a csr matrix in any file system, packed and unpacked. -/
example (fs : FS Nat Int) (pack : Bool) :
    let m : Mtx Nat Int := ⟨.sp { fmt := .csr, nr := 2, nc := 2, data := [((0, 1), 9), ((1, 1), 0)] }, [10, 11], [20, 21]⟩
    Constructible m ∧ Valid m ∧ (∀ s, m.body = .sp s → s.fmt = .csr) ∧
      (pack = false → (splitext "/data/x.freq".toList).2 ≠ extPac) ∧ NoStale fs (loadBase "/data/x.freq".toList) m := by
  refine ⟨rfl, ⟨rfl, rfl, by decide, by decide, ?_⟩, ?_, by intro _; decide, trivial⟩
  · intro s hs; cases hs
    exact ⟨by unfold Dict.WF; decide, by decide⟩
  · intro s hs; cases hs; rfl

example : splitext "/data/x.freq.pac".toList = ("/data/x.freq".toList, extPac) := by decide

/-! ### C57: which files are touched -/

/-- **C57, partial.** Saving under a name changes at most the files with that base name and one of the four extensions; the
archive is written, and after a packed save the two intermediate files are gone.  Missing from the full claim, because false:
files of an unpacked matrix of that name do not survive (`C57_false_unpacked_lost`). -/
theorem C57_save_frame_partial (fs : FS κ ν) (m : Mtx κ ν) (name : Str) (pack : Bool) (p : Str)
    (h1 : p ≠ saveBase name pack ++ extMeta) (h2 : p ≠ saveBase name pack ++ extNpz)
    (h3 : p ≠ saveBase name pack ++ extNpy) (h4 : pack = true → p ≠ saveBase name pack ++ extPac) :
    (save fs m name pack).1 p = fs p := by
  unfold save
  cases hb : bodyFile (κ := κ) m.body with
  | error e => simp only [FS.write, h1, if_false]
  | ok x =>
    obtain ⟨ext, f⟩ := x
    have h5 : p ≠ saveBase name pack ++ ext := by
      rcases bodyFile_ext hb with ⟨_, rfl⟩ | ⟨_, rfl⟩ <;> assumption
    cases pack with
    | true =>
      have h6 : p ≠ zipName name := by rw [zipName_eq, ← saveBase_pack]; exact h4 rfl
      simp only [if_true, FS.write, FS.remove, h1, h5, h6, if_false]
    | false => simp only [Bool.false_eq_true, if_false, FS.write, h1, h5]

/-- **C57.** Loading an unpacked matrix never changes a file, whether it succeeds or not. -/
theorem C57_load_unpacked_keeps [AllClose ν] (fs : FS κ ν) (name p : Str) : (load fs name false).1 p = fs p := by
  unfold load
  simp only [Bool.false_eq_true, if_false]
  cases readParts fs (loadBase name) with
  | error e => rfl
  | ok x => rfl

/-- **C57.** Loading a packed matrix that was just saved leaves every file as it was. -/
theorem C57_load_keeps [AllClose ν] (fs : FS κ ν) (m : Mtx κ ν) (name : Str) (hst : NoStale fs (loadBase name) m)
    (hok : (save fs m name true).2 = .ok ()) (hre : ∃ t, reread m = .ok t) (p : Str) :
    (load (save fs m name true).1 name true).1 p = (save fs m name true).1 p := by
  obtain ⟨d1, d2, d3, d4, d5, d6⟩ := ext_distinct
  have hb : ∃ ext f, bodyFile (κ := κ) m.body = .ok (ext, f) := by
    unfold save at hok
    cases hb : bodyFile (κ := κ) m.body with
    | error e => rw [hb] at hok; cases hok
    | ok x => exact ⟨x.1, x.2, rfl⟩
  obtain ⟨ext, f, hb⟩ := hb
  have hx := bodyFile_ext hb
  have hme : extMeta ≠ ext := by rcases hx with ⟨_, rfl⟩ | ⟨_, rfl⟩ <;> assumption
  have hpe : extPac ≠ ext := by
    rcases hx with ⟨_, rfl⟩ | ⟨_, rfl⟩
    · exact d5.symm
    · exact d6.symm
  have hns : ∀ c ∈ ext, c ≠ '/' := by
    rcases hx with ⟨_, rfl⟩ | ⟨_, rfl⟩
    · exact noSlash_npz
    · exact noSlash_npy
  set base := loadBase name with hbase
  set fs1 : FS κ ν := (((fs.write (base ++ extMeta) (.info m.rows m.cols)).write (base ++ ext) f).write (base ++ extPac)
      (.zip [(basePart (base ++ extMeta), .info m.rows m.cols), (basePart (base ++ ext), f)])) with hfs1
  have hs : save fs m name true = ((fs1.remove (base ++ extMeta)).remove (base ++ ext), .ok ()) := by
    unfold save
    rw [saveBase_pack, zipName_eq, ← hbase]
    simp only [hb, if_true]
    rfl
  rw [hs]
  set fs2 := (fs1.remove (base ++ extMeta)).remove (base ++ ext) with hfs2
  have hzip : fs2 (base ++ extPac) = some (.zip [(basePart (base ++ extMeta), .info m.rows m.cols), (basePart (base ++ ext), f)]) := by
    simp only [hfs2, FS.remove, hfs1, FS.write, ext_ne base hpe, ext_ne base d3.symm, if_false, if_true]
  have hun : unpack fs2 base = .ok ((fs2.write (base ++ extMeta) (.info m.rows m.cols)).write (base ++ ext) f) := by
    unfold unpack
    rw [hzip]
    simp only [extractAll, List.foldl_cons, List.foldl_nil, extract_path base extMeta noSlash_meta, extract_path base ext hns]
  set fs3 := (fs2.write (base ++ extMeta) (.info m.rows m.cols)).write (base ++ ext) f with hfs3
  have hrp := readParts_of (fs := fs3) (base := base) hb
    (by simp only [hfs3, FS.write, ext_ne base hme, if_false, if_true])
    (by simp only [hfs3, FS.write, if_true])
    (by
      intro d hd
      have he : ext = extNpy := by
        rcases hx with ⟨⟨s, hs, _⟩, _⟩ | ⟨_, he⟩
        · rw [hd] at hs; cases hs
        · exact he
      unfold NoStale at hst
      rw [hd] at hst
      simp only at hst
      subst he
      simp only [hfs3, hfs2, hfs1, FS.write, FS.remove, ext_ne base d4, ext_ne base d1.symm, ext_ne base d5, if_false]
      exact hst)
  have hparts : ∃ b, readParts fs3 base = .ok (base ++ ext, b, m.rows, m.cols) := by
    obtain ⟨t, ht⟩ := hre
    rw [hrp]
    unfold reread at ht
    cases hm : m.body with
    | sp s =>
      rw [hm] at ht
      cases hc : s.arrays.toCsr with
      | error e => simp only [hc, bind, Except.bind] at ht; cases ht
      | ok u => exact ⟨.sp u, by simp only [hc, Except.map]⟩
    | dn d => exact ⟨.dn d, rfl⟩
  obtain ⟨b, hparts⟩ := hparts
  unfold load
  rw [← hbase]
  simp only [if_true, hun, hparts]
  show ((fs3.remove (base ++ extMeta)).remove (base ++ ext)) p = fs2 p
  simp only [hfs3, FS.remove, FS.write]
  by_cases e1 : p = base ++ ext
  · simp only [e1, if_true, hfs2, FS.remove]
  · by_cases e2 : p = base ++ extMeta
    · subst e2
      simp only [e1, if_false, if_true, hfs2, FS.remove]
    · simp only [e1, e2, if_false]

/-- **C57: the full claim is false**: a packed save removes the meta data file of a matrix that was saved unpacked under the
same name, so that matrix can no longer be loaded. -/
theorem C57_false_unpacked_lost [Zero ν] [AllClose ν] (fs : FS κ ν) (m t : Mtx κ ν) (name : Str)
    (hn : (splitext name).2 ≠ extPac) (hm : IsCsr m) (ht : IsCsr t) :
    let fs1 := (save fs m name false).1
    fs1 (name ++ extMeta) = some (.info m.rows m.cols) ∧ (save fs1 t name true).1 (name ++ extMeta) = none ∧
      (save fs1 t name true).1 (name ++ extNpz) = none := by
  obtain ⟨d1, d2, d3, d4, d5, d6⟩ := ext_distinct
  obtain ⟨s, hs, hsf⟩ := hm
  obtain ⟨u, hu, huf⟩ := ht
  have hz : zipName name = name ++ extPac := by unfold zipName; rw [if_neg hn]
  have hb : saveBase name true = name := by unfold saveBase; rw [if_pos rfl, if_neg hn]
  have hb' : saveBase name false = name := rfl
  have b1 : bodyFile (κ := κ) m.body = .ok (extNpz, .npz s.arrays) := by
    unfold bodyFile; rw [hs]; exact if_neg (by rw [hsf]; decide)
  have b2 : bodyFile (κ := κ) t.body = .ok (extNpz, .npz u.arrays) := by
    unfold bodyFile; rw [hu]; exact if_neg (by rw [huf]; decide)
  intro fs1
  refine ⟨?_, ?_, ?_⟩
  · show (save fs m name false).1 (name ++ extMeta) = _
    unfold save
    simp only [hb', b1, Bool.false_eq_true, if_false, FS.write, ext_ne name d1, if_true]
  · unfold save
    simp only [hb, b2, if_true, FS.remove, ext_ne name d1, if_false]
  · unfold save
    simp only [hb, b2, if_true, FS.remove]

end Verif.Matrix
