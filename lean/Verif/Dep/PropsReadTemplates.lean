import Verif.Dep.Templates
import Verif.Dep.PropsDepRel
import Verif.Dep.PropsConds

/-!
# C235: templates given to a handler
-/

set_option linter.unusedSectionVars false

namespace Verif.Dep
open Verif.Py Verif.Window Verif.Engine Verif.Matrix Verif.Cooc Verif.Vocab.Plain

variable {rx : String → String → Bool} {istree : Graph → Bool} {f : LineFormat} {ea : List String}

/-- **C235, targets**: a list of targets means its different elements, a vocabulary its items; nothing else is accepted. -/
theorem C235_targets (l : List String) (tok : Bool) : ∃ h, newDepHandler (.list l) tok = .ok h ∧ h.targets.Nodup ∧
    (∀ t, t ∈ h.targets ↔ t ∈ l) ∧ h.tok = tok ∧ h.macros = [] ∧ newDepHandler .other tok = .error .attributeError ∧
    (∀ v : Vocab.Vocab String, ∃ h', newDepHandler (.vocab v.freq.keys) tok = .ok h' ∧ (∀ t, t ∈ h'.targets ↔ v.freq.get? t ≠ none) ∧
      h'.tok = tok ∧ h'.macros = []) := by
  refine ⟨_, rfl, ?_, ?_, rfl, rfl, rfl, fun v => ⟨_, rfl, fun t => ?_, rfl, rfl⟩⟩
  · have : ∀ (l : List String) (d : Dict String Int), Dict.WF d → Dict.WF (l.foldl (fun d t => Dict.set d t (0 : Int)) d) := by
      intro l
      induction l with
      | nil => intro d h; exact h
      | cons a l ih => intro d h; exact ih _ (Dict.WF_set h a 0)
    exact this l [] (by simp [Dict.WF, Dict.keys])
  · have : ∀ (l : List String) (d : Dict String Int) (t : String),
        t ∈ Dict.keys (l.foldl (fun d t => Dict.set d t (0 : Int)) d) ↔ t ∈ Dict.keys d ∨ t ∈ l := by
      intro l
      induction l with
      | nil => intro d t; simp
      | cons a l ih =>
        intro d t
        rw [List.foldl_cons, ih, Dict.keys_set]
        by_cases ha : a ∈ Dict.keys d
        · rw [if_pos ha]
          simp only [List.mem_cons]
          constructor
          · tauto
          · rintro (h | rfl | h) <;> tauto
        · rw [if_neg ha]
          simp only [List.mem_append, List.mem_cons, List.not_mem_nil, or_false]
          tauto
    intro t
    rw [this l [] t]
    simp [Dict.keys]
  · rw [ne_eq, Dict.get?_eq_none_iff, not_not]

/-- **C235, used templates**: after `read_templates(macros=ms)` the dependency matrix counts the matches of the sentences of the
files of that call, whatever matches the templates have from another handler and whatever the handler had read and found before.
`sents`, `SentenceAdds` and `hasStrings` are those of C70. -/
theorem C235_used_templates_partial (grp : String → String → Nat → Option String) (S : DepSettings f ea) (files : List CorpusFile)
    (sents : CorpusFile → List (List Word)) (hf : ∀ c ∈ files, readSentence f c.lines = (sents c).map linesOf)
    (hs : ∀ c ∈ files, ∀ ws ∈ sents c, GoodSentence f ws) (h : DepHandler) (ms : List Macro) (file : Option (List (Str × Str)))
    (hms : ms ≠ []) (hG : ∀ m ∈ ms, GoodMacro f ea m) (hR : ∀ m ∈ ms, Readable h.tok m) :
    ∃ h', readTemplates h (some ms) file = .ok h' ∧ h'.targets = h.targets ∧ h'.tok = h.tok ∧
      ∀ (W : Nat) (acc : Nat → List Match),
        DepCall (depFound rx istree f h'.tok h'.targets h'.macros) W files (fun _ => []) acc →
        (∃ m ∈ withFound h'.macros acc, m.found ≠ []) →
        ∃ (recs : Nat → CorpusFile → List (List Match)) (mtx : Mtx String Int),
          (∀ i m, ms[i]? = some m → ∀ c ∈ files,
            List.Forall₂ (SentenceAdds rx istree f ea (fileId h.tok c) { m with filter := some h.targets, found := [] }) (sents c) (recs i c)) ∧
          matchMatrix grp h'.tok (withFound h'.macros acc) = .ok mtx ∧ Valid mtx ∧
          ∀ t ft, entry mtx t ft = ((ms.zipIdx.map (fun e => (files.map (fun c =>
            (recs e.2 c).flatten.countP (hasStrings grp h.tok { e.1 with found := [] } t ft))).sum)).sum : Nat) := by
  obtain ⟨m0, rest, rfl⟩ := List.exists_cons_of_ne_nil hms
  refine ⟨_, rfl, rfl, rfl, ?_⟩
  intro W acc hcall hne
  have hG' : ∀ m ∈ (m0 :: rest).map clearMatches, GoodMacro f ea m := by
    intro m hm
    obtain ⟨x, hx, rfl⟩ := List.mem_map.1 hm
    obtain ⟨a, b, c, d, e, g, k⟩ := hG x hx
    exact ⟨a, b, c, d, e, g, k⟩
  have hR' : ∀ m ∈ (m0 :: rest).map clearMatches, Readable h.tok m := by
    intro m hm
    obtain ⟨x, hx, rfl⟩ := List.mem_map.1 hm
    obtain ⟨a, b, c, d, e⟩ := hR x hx
    exact ⟨a, b, c, d, e⟩
  have h0 : ∀ m ∈ (m0 :: rest).map clearMatches, m.found = [] := by
    intro m hm
    obtain ⟨x, hx, rfl⟩ := List.mem_map.1 hm
    rfl
  obtain ⟨recs, mtx, h1, h2, h3, h4⟩ := C70_partial grp S files sents hf hs h.targets _ hG' h0 W acc hcall hR' hne
  refine ⟨recs, mtx, ?_, h2, h3, ?_⟩
  · intro i m hm c hc
    exact h1 i (clearMatches m) (by rw [List.getElem?_map, hm]; rfl) c hc
  · intro t ft
    rw [h4]
    rw [List.zipIdx_map, List.map_map]
    rfl

/-- **C235, nothing given**: without macros and without a file name, a `ValueError`. -/
theorem C235_nothing (h : DepHandler) : readTemplates h none none = .error .valueError ∧ readTemplates h (some []) none = .error .valueError :=
  ⟨rfl, rfl⟩

/-- **C235 is false for files**: templates cannot be read from a file, as the documentation shows it: every table with rows that
are templates is a `TypeError` (see C121). -/
theorem C235_false_file (h : DepHandler) {rows : List (Str × Str)} {ps : List Pattern} (hne : rows ≠ []) (hr : readCsv rows = .ok ps) :
    readTemplates h none (some rows) = .error .typeError := by
  simp only [readTemplates, C121_false hne hr]
  rfl

/-! ### A concrete case -/

/-- The sample template, used before: it holds a match. -/
def usedMacro : Macro := { verbMacro none with found := [⟨[], []⟩] }

/-- Read into a handler that had it already, it counts the sample file as if it was new. -/
example : ∃ h' mtx, readTemplates ⟨["apple/N"], false, [usedMacro]⟩ (some [usedMacro]) none = .ok h' ∧
    matchMatrix grp0 false (withFound h'.macros
      (fun i => depFound rx0 (fun _ => true) sampleFmt false ["apple/N"] h'.macros sampleFile i)) = .ok mtx ∧ Valid mtx := by
  obtain ⟨h', h1, h2, h3, h4⟩ := C235_used_templates_partial (rx := rx0) (istree := fun _ => true) grp0 sample_settings [sampleFile]
    (fun _ => [sampleWords]) (by intro c h; rcases List.mem_singleton.1 h with rfl; exact sample_read)
    (by intro c _ ws h; rcases List.mem_singleton.1 h with rfl; exact sample_sentence) ⟨["apple/N"], false, [usedMacro]⟩ [usedMacro] none
    (by simp) (by
      intro m h
      rcases List.mem_singleton.1 h with rfl
      obtain ⟨a, b, c, d, e, g, k⟩ := sample_macro none
      exact ⟨a, b, c, d, e, g, k⟩) (by
      intro m h
      rcases List.mem_singleton.1 h with rfl
      obtain ⟨a, b, c, d, e⟩ := sample_readable none
      exact ⟨a, b, c, d, e⟩)
  injection h1 with h1
  subst h1
  obtain ⟨_, mtx, _, g2, g3, _⟩ := h4 1 _ (sample_call _)
    ⟨_, List.mem_cons_self .., by
      have : (depFound rx0 (fun _ => true) sampleFmt false ["apple/N"] [verbMacro none] sampleFile 0).length = 1 := by decide
      intro h
      have h' : depFound rx0 (fun _ => true) sampleFmt false ["apple/N"] [verbMacro none] sampleFile 0 = [] := h
      rw [h'] at this
      exact absurd this (by decide)⟩
  exact ⟨_, mtx, rfl, g2, g3⟩

end Verif.Dep
