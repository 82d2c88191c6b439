import Verif.Matrix.PropsStore

/-!
# C28: the name of the archive, and a missing archive
-/

namespace Verif.Matrix
open Verif.Py Verif.Vocab.Plain
set_option linter.unusedSectionVars false

variable {κ ν : Type} [LinearOrder κ]

/-- A directory as it stands before the last component of a path: nothing, or something that ends with a slash. -/
def IsDir (d : Str) : Prop := d = [] ∨ ∃ d', d = d' ++ ['/']

theorem parts_of {d c : Str} (hd : IsDir d) (hc : '/' ∉ c) : dirPart (d ++ c) = d ∧ basePart (d ++ c) = c := by
  have h1 : ∀ x ∈ c, x ≠ '/' := by rintro x hx rfl; exact hc hx
  have e : dirPart (d ++ c) = d := by
    rw [dirPart_append _ _ h1]
    unfold dirPart
    rcases hd with rfl | ⟨d', rfl⟩
    · rfl
    · rw [List.reverse_append]
      simp
  refine ⟨e, ?_⟩
  have := dir_base (d ++ c)
  rw [e] at this
  exact List.append_cancel_left this

theorem splitext_dot {d b e : Str} (hd : IsDir d) (hb : '/' ∉ b) (he : '/' ∉ e) (he' : '.' ∉ e) :
    splitext (d ++ (b ++ '.' :: e)) = if b.any (fun c => c ≠ '.') then (d ++ b, '.' :: e) else (d ++ (b ++ '.' :: e), []) := by
  have hc : '/' ∉ b ++ '.' :: e := by simp [hb, he]
  obtain ⟨h1, h2⟩ := parts_of hd hc
  unfold splitext
  rw [h1, h2]
  have hr : (b ++ '.' :: e).reverse = e.reverse ++ '.' :: b.reverse := by simp
  have hne : ∀ x ∈ e.reverse, decide (x ≠ '.') = true := by
    intro x hx
    have : x ≠ '.' := by rintro rfl; exact he' (List.mem_reverse.1 hx)
    simpa using this
  have hdw : (e.reverse ++ '.' :: b.reverse).dropWhile (fun c => decide (c ≠ '.')) = '.' :: b.reverse := by
    rw [List.dropWhile_append_of_pos hne]; simp
  have htw : (e.reverse ++ '.' :: b.reverse).takeWhile (fun c => decide (c ≠ '.')) = e.reverse := by
    rw [List.takeWhile_append_of_pos hne]; simp
  simp only [hr, hdw, htw, List.any_reverse, List.reverse_reverse]

theorem splitext_plain {d b : Str} (hd : IsDir d) (hb : '/' ∉ b) (hb' : '.' ∉ b) : splitext (d ++ b) = (d ++ b, []) := by
  obtain ⟨h1, h2⟩ := parts_of hd hb
  unfold splitext
  rw [h2]
  have : b.reverse.dropWhile (fun c => decide (c ≠ '.')) = [] := by
    apply List.eq_nil_of_length_eq_zero
    by_contra hl
    have hne : b.reverse.dropWhile (fun c => decide (c ≠ '.')) ≠ [] := fun e => hl (by rw [e]; rfl)
    have hh := List.head_dropWhile_not (fun c => decide (c ≠ '.')) hne
    have hx := (List.dropWhile_sublist (fun c => decide (c ≠ '.'))).subset (List.head_mem hne)
    revert hh hx
    generalize List.head _ hne = x
    intro hh hx
    have : x ≠ '.' := by rintro rfl; exact hb' (List.mem_reverse.1 hx)
    simp [this] at hh
  simp only [this]

theorem saved_zip (fs : FS κ ν) (m : Mtx κ ν) (name : Str) (h : (save fs m name).2 = .ok ()) :
    ∃ ms, (save fs m name).1 (zipName name) = some (.zip ms) := by
  obtain ⟨d1, d2, d3, d4, d5, d6⟩ := ext_distinct
  unfold save at h ⊢
  cases hb : bodyFile (κ := κ) m.body with
  | error e => rw [hb] at h; cases h
  | ok p =>
    obtain ⟨ext, f⟩ := p
    simp only [if_true]
    refine ⟨[(basePart (saveBase name true ++ extMeta), .info m.rows m.cols), (basePart (saveBase name true ++ ext), f)], ?_⟩
    rw [saveBase_pack, zipName_eq]
    have hx := bodyFile_ext hb
    have h1 : extPac ≠ ext := by rcases hx with ⟨_, rfl⟩ | ⟨_, rfl⟩ <;> decide
    have h2 : extPac ≠ extMeta := by decide
    unfold FS.remove FS.write
    simp only [if_neg (ext_ne (loadBase name) h1), if_neg (ext_ne (loadBase name) h2), if_true]

/-- **C28** (which file is written): saving under a name with the extension `.pac` writes that file; under a name without a dot it
writes the file with `.pac` added; a last component `.pac` (or dots and `.pac`) has no extension, so that `.pac` is added to it as well. -/
theorem C28_archive_name (fs : FS κ ν) (m : Mtx κ ν) {d b : Str} (hd : IsDir d) (hb : '/' ∉ b) :
    (b.any (fun c => c ≠ '.') = true → (save fs m (d ++ (b ++ extPac))).2 = .ok () →
      ∃ ms, (save fs m (d ++ (b ++ extPac))).1 (d ++ (b ++ extPac)) = some (.zip ms)) ∧
    ('.' ∉ b → (save fs m (d ++ b)).2 = .ok () → ∃ ms, (save fs m (d ++ b)).1 (d ++ b ++ extPac) = some (.zip ms)) ∧
    (b.any (fun c => c ≠ '.') = false → (save fs m (d ++ (b ++ extPac))).2 = .ok () →
      ∃ ms, (save fs m (d ++ (b ++ extPac))).1 (d ++ (b ++ extPac) ++ extPac) = some (.zip ms)) := by
  have hp : extPac = '.' :: ['p', 'a', 'c'] := by decide
  refine ⟨?_, ?_, ?_⟩
  · intro h hs
    have := saved_zip fs m _ hs
    have hz : zipName (d ++ (b ++ extPac)) = d ++ (b ++ extPac) := by
      unfold zipName
      rw [hp, splitext_dot hd hb (by decide) (by decide), if_pos h, if_pos rfl]
    rwa [hz] at this
  · intro h hs
    have := saved_zip fs m _ hs
    have hz : zipName (d ++ b) = d ++ b ++ extPac := by
      unfold zipName
      rw [splitext_plain hd hb h, if_neg (fun e => nomatch e)]
    rwa [hz] at this
  · intro h hs
    have := saved_zip fs m _ hs
    have hz : zipName (d ++ (b ++ extPac)) = d ++ (b ++ extPac) ++ extPac := by
      unfold zipName
      rw [hp, splitext_dot hd hb (by decide) (by decide), if_neg (by rw [h]; simp)]
    rwa [hz] at this

example : IsDir "out/".toList ∧ '/' ∉ "m".toList ∧ "m".toList.any (fun c => c ≠ '.') = true :=
  ⟨.inr ⟨['o', 'u', 't'], by decide⟩, by decide, by decide⟩

/-- **C28** (a missing archive) is a `FileNotFoundError`, and nothing changes. -/
theorem C28_missing [AllClose ν] (fs : FS κ ν) {d b : Str} (hd : IsDir d) (hb : '/' ∉ b) (hb' : '.' ∉ b)
    (h : fs (d ++ b ++ extPac) = none) : load fs (d ++ b) = (fs, .error .fileNotFound) := by
  have hl : loadBase (d ++ b) = d ++ b := by
    unfold loadBase
    rw [splitext_plain hd hb hb', if_neg (fun e => nomatch e)]
  unfold load
  rw [hl]
  simp only [if_true]
  unfold unpack
  rw [h]

example : (load (κ := Nat) (ν := Int) (fun _ => none) ("out/".toList ++ "m".toList)).2 = .error .fileNotFound := by
  rw [C28_missing (fun _ => none) (d := "out/".toList) (.inr ⟨['o', 'u', 't'], by decide⟩) (by decide) (by decide) rfl]

end Verif.Matrix
