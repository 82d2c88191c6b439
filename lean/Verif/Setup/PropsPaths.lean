import Verif.Setup.Paths

/-!
# C50, C51, C81, C82: directories and file lists
-/

namespace Verif.Setup

open Verif.Py
open Verif.Vocab.Plain (Str strip)

variable {P : Type}

/-! ## C50 -/

/-- What the documentation promises: `tmp-path` if set, else `tmp` under `output-path` if that is set, else the
default; below it the directory of the handler class. -/
def PromisedTmp (env : Env P) (indicator : String) (s : DirSettings P) (d : P) : Prop :=
  (∃ t, s.tmpPath = some t ∧ d = env.join t indicator) ∨
  (s.tmpPath = none ∧ ∃ o, s.outputPath = some o ∧ d = env.join (env.join o "tmp") indicator) ∨
  (s.tmpPath = none ∧ s.outputPath = none ∧ d = env.join env.dflt indicator)

/-- C50, partial: with `tmp-path` set, the temporary directory is the promised one.
Missing: settings without `tmp-path` (`C50_false_output`, `C50_false_neither`). -/
theorem C50_partial (env : Env P) (indicator : String) (s : DirSettings P) (files : List P)
    (h : s.tmpPath ≠ none) :
    ∃ hd, (construct env indicator s files).2 = .ok hd ∧ PromisedTmp env indicator s hd.tmpdir := by
  cases ht : s.tmpPath with
  | none => exact absurd ht h
  | some t =>
    refine ⟨⟨env.join t indicator, s.outputPath.getD env.dflt⟩, ?_, .inl ⟨t, ht, rfl⟩⟩
    simp [construct, chooseTmp, ht, bind, Except.bind, pure, Except.pure]

example : ∃ s : DirSettings Nat, s.tmpPath ≠ none := ⟨⟨some 1, none⟩, by simp⟩

/-- C50 is false without `tmp-path` but with `output-path`: the default directory is used, whatever
`output-path` is. -/
theorem C50_false_output (env : Env P) (indicator : String) (o : P) (files : List P)
    (hne : env.join env.dflt indicator ≠ env.join (env.join o "tmp") indicator) :
    ∃ hd, (construct env indicator ⟨none, some o⟩ files).2 = .ok hd ∧ hd.tmpdir = env.join env.dflt indicator ∧
      ¬ PromisedTmp env indicator ⟨none, some o⟩ hd.tmpdir := by
  refine ⟨⟨env.join env.dflt indicator, o⟩, rfl, rfl, ?_⟩
  rintro (⟨t, ht, _⟩ | ⟨_, o', ho, hd⟩ | ⟨_, ho, _⟩)
  · exact (nomatch ht)
  · obtain rfl := Option.some.inj ho
    exact hne hd
  · exact (nomatch ho)

example : ∃ env : Env (List String), env.join env.dflt "x" ≠ env.join (env.join ["out"] "tmp") "x" :=
  ⟨⟨["home", "tmp"], fun p s => p ++ [s], fun a b => a.isPrefixOf b, fun _ => true⟩, by decide⟩

/-- C50 is false with neither: no handler can be constructed (`KeyError`). -/
theorem C50_false_neither (env : Env P) (indicator : String) (files : List P) :
    (construct env indicator ⟨none, none⟩ files).2 = .error .key := rfl

/-! ## C81: constructing a handler and the files of the user -/

/-- C81, partial: constructing a handler (also if it fails) leaves every file outside the default temporary
directory; no file appears.  Missing: files in that directory (`C81_false`, `C81_false_output`). -/
theorem C81_partial (env : Env P) (indicator : String) (s : DirSettings P) (files : List P) (p : P) :
    (p ∈ (construct env indicator s files).1 → p ∈ files) ∧
    (p ∈ files → env.below env.dflt p = false → p ∈ (construct env indicator s files).1) := by
  unfold construct cleanDir
  simp only [List.mem_filter, Bool.not_eq_true', Bool.and_eq_false_iff]
  exact ⟨fun h => h.1, fun h1 h2 => ⟨h1, .inl h2⟩⟩

/-- C81 is false: whatever the settings, also if `tmp-path` is another directory and also if the constructor
raises, every removable file below the default directory is gone. -/
theorem C81_false (env : Env P) (indicator : String) (s : DirSettings P) (files : List P) (p : P)
    (hb : env.below env.dflt p = true) (hr : env.removable p = true) :
    p ∉ (construct env indicator s files).1 := by
  unfold construct cleanDir
  simp [hb, hr]

/-- C81 is false: without `output-path` the results a user saves in the handler's output directory are deleted
when the next handler is constructed. -/
theorem C81_false_output :
    ∃ (env : Env (List String)) (s : DirSettings (List String)) (hd : Handler (List String)) (p : List String),
      (construct env "item.freq" s []).2 = .ok hd ∧ p = hd.outputPath ++ ["result"] ∧
      p ∉ (construct env "col.freq" s [p]).1 :=
  ⟨⟨["home", "tmp"], fun p s => p ++ [s], fun a b => a.isPrefixOf b, fun _ => true⟩,
    ⟨some ["data", "tmp"], none⟩, ⟨["data", "tmp", "item.freq"], ["home", "tmp"]⟩, ["home", "tmp", "result"],
    by decide, by decide, by decide⟩

/-! ## C51 -/

/-- A name of a list is resolved: kept if it has a separator, otherwise placed in the directory. -/
def Resolved (dir name path : Str) : Prop :=
  ('/' ∈ name ∧ path = name) ∨ ('/' ∉ name ∧ path = dir ++ ['/'] ++ name)

/-- A line of a list that names a file: the name is the line without surrounding white space, not empty, and
does not begin with `#`. -/
def Names (line name : Str) : Prop := name = strip line ∧ name ≠ [] ∧ ∀ rest, name ≠ '#' :: rest

/-- The lines that name files, in order, with their names. -/
inductive Listed : List Str → List Str → Prop
  | nil : Listed [] []
  | skip {line ls ns} : (∀ n, ¬ Names line n) → Listed ls ns → Listed (line :: ls) ns
  | keep {line n ls ns} : Names line n → Listed ls ns → Listed (line :: ls) (n :: ns)

theorem keepLine_iff (line n : Str) : keepLine line = some n ↔ Names line n := by
  unfold keepLine Names
  simp only
  cases hs : strip line with
  | nil =>
    simp
    rintro rfl h
    exact absurd rfl h
  | cons c cs =>
    by_cases hc : c = '#'
    · subst hc
      simp
      rintro rfl _
      exact ⟨cs, rfl⟩
    · simp [hc]
      constructor
      · rintro rfl
        exact ⟨rfl, by simp, fun rest h => hc (List.cons.inj h).1⟩
      · rintro ⟨rfl, _, _⟩
        rfl

theorem listed_filterMap (ls : List Str) : Listed ls (ls.filterMap keepLine) := by
  induction ls with
  | nil => exact .nil
  | cons l ls ih =>
    cases h : keepLine l with
    | none =>
      rw [List.filterMap_cons_none h]
      refine .skip (fun n hn => ?_) ih
      rw [← keepLine_iff, h] at hn
      exact (nomatch hn)
    | some n =>
      rw [List.filterMap_cons_some h]
      exact .keep ((keepLine_iff l n).1 h) ih

/-- C51, partial: `read_fnames(filename, dirname)` gives, in order, the names on the lines that are neither
blank nor comments, bare names placed in `dirname`; the extension `.fnames` may be left out; a missing file is
reported.  Missing: handlers call it with the encoding as the directory (`C51_false`), and without a directory
bare names end in the root directory (`C51_false_default`). -/
theorem C51_partial (disk : Disk) (filename dirname : Str) :
    (∀ r, readFnames disk filename dirname = .ok r ↔ ∃ ls names,
      disk.lines (if disk.isFnames filename then filename else filename ++ ".fnames".toList) = some ls ∧
      Listed ls names ∧ List.Forall₂ (Resolved dirname) names r) ∧
    (disk.lines (if disk.isFnames filename then filename else filename ++ ".fnames".toList) = none →
      readFnames disk filename dirname = .error .io) := by
  have hres : ∀ n p, Resolved dirname n p ↔ placeName dirname n = p := by
    intro n p
    unfold Resolved placeName
    by_cases h : '/' ∈ n
    · simp [h, eq_comm]
    · simp [h, eq_comm]
  have huniq : ∀ {ls ns ns'}, Listed ls ns → Listed ls ns' → ns = ns' := by
    intro ls
    induction ls with
    | nil => rintro ns ns' ⟨⟩ ⟨⟩; rfl
    | cons l ls ih =>
      intro ns ns' h h'
      cases h with
      | skip hno h =>
        cases h' with
        | skip _ h' => exact ih h h'
        | keep hn _ => exact absurd hn (hno _)
      | keep hn h =>
        cases h' with
        | skip hno _ => exact absurd hn (hno _)
        | keep hn' h' => rw [hn.1, hn'.1, ih h h']
  unfold readFnames
  simp only
  generalize (if disk.isFnames filename = true then filename else filename ++ ".fnames".toList) = nm
  cases hl : disk.lines nm with
  | none => simp
  | some ls =>
    simp only [Except.ok.injEq, Option.some.injEq, reduceCtorEq, false_implies, and_true]
    intro r
    constructor
    · rintro rfl
      refine ⟨ls, ls.filterMap keepLine, rfl, listed_filterMap ls, ?_⟩
      rw [List.forall₂_map_right_iff, List.forall₂_same]
      exact fun n _ => (hres _ _).2 rfl
    · rintro ⟨ls', names, rfl, h1, h2⟩
      rw [huniq (listed_filterMap ls) h1]
      clear h1
      induction h2 with
      | nil => rfl
      | cons ha _ ih => rw [List.map_cons, (hres _ _).1 ha, ih]

example : readFnames ⟨fun _ => some ["# list".toList, " a.txt\n".toList, "\n".toList, "x/b.txt".toList],
    fun _ => true⟩ "l.fnames".toList "corpus".toList = .ok ["corpus/a.txt".toList, "x/b.txt".toList] := by
  decide

/-- C51 is false for handlers: a bare name ends up below a directory called like the encoding, whatever the
corpus path (the walk) is. -/
theorem C51_false (join : Str → Str → Str) (walk : Option Walk) :
    ∃ disk, prepareFnames disk join walk "utf-8".toList (.file "l.fnames".toList)
      = .ok ["utf-8/a.txt".toList] ∧ disk.lines "l.fnames".toList = some ["a.txt".toList] :=
  ⟨⟨fun _ => some ["a.txt".toList], fun _ => true⟩,
    by simp only [prepareFnames]; decide, by decide⟩

/-- C51 is false with the default directory: a bare name becomes a path in the root directory. -/
theorem C51_false_default :
    ∃ disk, readFnames disk "l.fnames".toList [] = .ok ["/a.txt".toList] ∧
      disk.lines "l.fnames".toList = some ["a.txt".toList] :=
  ⟨⟨fun _ => some ["a.txt".toList], fun _ => true⟩, by decide, by decide⟩

/-! ## C82: no list, a list, anything else -/

/-- C82: without a file list, every file found below the corpus path is used exactly once; a Python list is
used as it is; anything but a list or a string is refused; so is a missing corpus path. -/
theorem C82_corpus (disk : Disk) (join : Str → Str → Str) (walk : Walk) (encoding : Str) :
    (∃ r, prepareFnames disk join (some walk) encoding .none = .ok r ∧
      r.Perm (walk.flatMap (fun d => d.2.2.map (join d.1)))) ∧
    (∀ w l, prepareFnames disk join w encoding (.list l) = .ok l) ∧
    (∀ w, prepareFnames disk join w encoding .other = .error .value) ∧
    prepareFnames disk join none encoding .none = .error .type := by
  refine ⟨⟨_, rfl, ?_⟩, fun _ _ => rfl, fun _ => rfl, rfl⟩
  unfold readFnamesOfCorpus
  exact (sortedBy_perm _ _).flatMap_right _

/-- C82: the order does not depend on the order in which the directories are found. -/
theorem C82_order (disk : Disk) (join : Str → Str → Str) (walk walk' : Walk) (encoding : Str)
    (hroots : (walk.map Prod.fst).Nodup) (hp : walk.Perm walk') :
    prepareFnames disk join (some walk) encoding .none = prepareFnames disk join (some walk') encoding .none := by
  have : sortedBy Prod.fst walk = sortedBy Prod.fst walk' := by
    refine eq_of_perm_of_pairwise ?_ ((sortedBy_perm _ _).trans (hp.trans (sortedBy_perm _ _).symm))
      (sortedBy_pairwise _ _) (sortedBy_pairwise _ _)
    intro a ha b hb h1 h2
    have ha' := (sortedBy_perm _ _).mem_iff.1 ha
    have hb' := (sortedBy_perm _ _).mem_iff.1 hb
    exact List.inj_on_of_nodup_map hroots ha' hb' (le_antisymm h1 h2)
  simp only [prepareFnames, readFnamesOfCorpus, this]

example : prepareFnames ⟨fun _ => none, fun _ => true⟩ (fun a b => a ++ '/' :: b)
    (some [("c/b".toList, [], ["2".toList]), ("c".toList, ["b".toList], ["1".toList])]) [] .none
    = .ok ["c/1".toList, "c/b/2".toList] := by decide

end Verif.Setup
