import Verif.Items.NodeLemmas
import Verif.Regex.Columns
import Verif.Regex.Corpus
import Verif.Items.PropsFormatter
import Verif.Dep.PropsPattern

/-!
# C181-C183: line machines of columns, lines of a file, boundary machines
-/

namespace Verif.Regex

open Verif.Py
open Verif.Vocab.Plain (Str isSpace isBreak strip)
open Verif.Items (Match Settings Formatter Err Line readLine matchLine separatorLine getType getColloc getToken construct split
  split_append split_noc construct_ok)
open Verif.Dep (Trimmed Blank strip_pad strip_trimmed)

/-! ## C181: line machines of columns -/

theorem lineMachine_of {s s' : Settings} {f : Formatter} (h : construct s = .ok (s', f)) {lm : Str}
    (hl : Dict.get? s "line-machine" = some lm) : f.lineMachine = some lm := by
  obtain ⟨_, _, _, _, _, _, _, _, _, _, _, _, _, _, hlm, _⟩ := construct_ok h
  unfold Verif.Items.lineMachines at hlm
  rw [hl] at hlm
  simp only [Except.ok.injEq, Prod.mk.injEq] at hlm
  exact hlm.1.symm

/-- C181: a formatter whose line machine is made of columns gives for every line what the columns of the line say. -/
theorem C181_columns (u : Tables) {s s' : Settings} {f : Formatter} (h : construct s = .ok (s', f)) {tab : Str} (ht : IsTab tab)
    {ks : List Col} (hne : ks ≠ []) (hk : ∀ k ∈ ks, k.Good) (hl : Dict.get? s "line-machine" = some (machine tab ks)) (line : Str) :
    matchLine (reMatch u) f line = .ok ((expected ks (split '\t' line)).map (fun e => some e.1 :: e.2.map some)) := by
  rw [matchLine, lineMachine_of h hl]
  show Except.ok _ = _
  rw [exec_machine u ht hne hk]

/-- Kept columns only: what is expected. -/
theorem expected_keep (n : Nat) (cs : List Str) :
    expected (List.replicate (n + 1) .keep) cs =
      if n < cs.length ∧ ∀ c ∈ cs.take (n + 1), c ≠ [] then some (Verif.Items.join '\t' (cs.take (n + 1)), cs.take (n + 1)) else none := by
  induction n generalizing cs with
  | zero =>
    cases cs with
    | nil => simp [expected]
    | cons c cs =>
      show (if Col.fitsLast .keep c then some (Col.whole .keep c, Col.kept .keep c) else none) = _
      by_cases hc : c = []
      · rw [if_neg (show ¬ Col.fitsLast .keep c from fun h => h hc), if_neg (by simp [hc])]
      · rw [if_pos (show Col.fitsLast .keep c from hc), if_pos (by simpa using hc)]
        simp [Col.whole, Col.kept, Verif.Items.join]
  | succ n ih =>
    cases cs with
    | nil => simp [List.replicate_succ, expected]
    | cons c cs =>
      have : expected (List.replicate (n + 1 + 1) .keep) (c :: cs) =
          if Col.fits .keep c then (expected (List.replicate (n + 1) .keep) cs).map (fun e => (c ++ '\t' :: e.1, Col.kept .keep c ++ e.2))
          else none := by
        rw [List.replicate_succ, expected]
        intro h
        simp at h
      rw [this, ih]
      by_cases hc : c = []
      · rw [if_neg (show ¬ Col.fits .keep c from fun h => h hc), if_neg (by simp [hc])]
      · rw [if_pos (show Col.fits .keep c from hc)]
        by_cases h : n < cs.length ∧ ∀ x ∈ cs.take (n + 1), x ≠ []
        · rw [if_pos h, if_pos]
          · have hne : cs.take (n + 1) ≠ [] := by
              intro e
              have := congrArg List.length e
              rw [List.length_take, List.length_nil] at this
              omega
            rw [List.take_succ_cons, Verif.Items.join_cons '\t' c hne]
            rfl
          · refine ⟨by rw [List.length_cons]; omega, fun x hx => ?_⟩
            rw [List.take_succ_cons, List.mem_cons] at hx
            rcases hx with rfl | hx
            · exact hc
            · exact h.2 x hx
        · rw [if_neg h, if_neg]
          · rfl
          · rintro ⟨h1, h2⟩
            refine h ⟨by rw [List.length_cons] at h1; omega, fun x hx => h2 x ?_⟩
            rw [List.take_succ_cons]
            exact List.mem_cons_of_mem _ hx

/-- C181 for a machine of `n + 1` kept columns: a line is an item line exactly if it has that many columns (or more), the first
`n + 1` of them not empty; the groups are these columns. -/
theorem C181_kept (u : Tables) {s s' : Settings} {f : Formatter} (h : construct s = .ok (s', f)) {tab : Str} (ht : IsTab tab) (n : Nat)
    (hl : Dict.get? s "line-machine" = some (machine tab (List.replicate (n + 1) .keep))) (line : Str) :
    (∀ m, matchLine (reMatch u) f line = .ok (some m) ↔
      (n < (split '\t' line).length ∧ (∀ c ∈ (split '\t' line).take (n + 1), c ≠ []) ∧
        m = some (Verif.Items.join '\t' ((split '\t' line).take (n + 1))) :: ((split '\t' line).take (n + 1)).map some)) ∧
    (matchLine (reMatch u) f line = .ok none ↔
      ((split '\t' line).length ≤ n ∨ [] ∈ (split '\t' line).take (n + 1))) := by
  rw [C181_columns u h ht (by simp) (by intro k hk; rw [List.eq_of_mem_replicate hk]; trivial) hl, expected_keep]
  by_cases hc : n < (split '\t' line).length ∧ ∀ c ∈ (split '\t' line).take (n + 1), c ≠ []
  · rw [if_pos hc]
    refine ⟨fun m => ?_, ?_⟩
    · simp only [Option.map_some, Except.ok.injEq, Option.some.injEq]
      constructor
      · intro e; exact ⟨hc.1, hc.2, e.symm⟩
      · rintro ⟨_, _, e⟩; exact e.symm
    · simp only [Option.map_some, Except.ok.injEq, reduceCtorEq, false_iff, not_or]
      exact ⟨by omega, fun hm => hc.2 _ hm rfl⟩
  · rw [if_neg hc]
    refine ⟨fun m => ?_, ?_⟩
    · simp only [Option.map_none, Except.ok.injEq, reduceCtorEq, false_iff]
      rintro ⟨h1, h2, _⟩
      exact hc ⟨h1, h2⟩
    · simp only [Option.map_none, true_iff]
      by_contra hn
      rw [not_or] at hn
      exact hc ⟨by omega, fun c hm e => hn.2 (e ▸ hm)⟩

/-- The boundary line of the shipped settings. -/
def artikel : Str := ['<', '/', 'a', 'r', 't', 'i', 'k', 'e', 'l', '>']

/-- The settings shipped with the package: three kept columns. -/
theorem shipped_machine : Dict.get? shipped "line-machine" = some (machine ['\\', 't'] (List.replicate (2 + 1) .keep)) := by
  decide +kernel

theorem shipped_ok : ∃ s' f, construct shipped = .ok (s', f) ∧ f.typeIds = [3, 2] ∧ f.collocIds = [3, 2] ∧ f.tokenIds = [1, 2] ∧
    f.single = some artikel := by
  refine ⟨_, _, rfl, ?_, ?_, ?_, ?_⟩ <;> decide +kernel

/-- The machine of the documentation for the Stanford corpus, a machine with skipped and fixed columns, and a line. -/
example : (machine ['\\', 't'] [.keep, .first, .keep]) = "([^\\t]+)\\t([^\\t])[^\\t]*\\t([^\\t]+)".toList ∧
    (machine ['\t'] [.drop, .keep, .lit ['_']]) = "[^\t]+\t([^\t]+)\t_".toList ∧
    expected [.keep, .first, .keep] (split '\t' "the\tDT\tthe\t3".toList) =
      some ("the\tDT\tthe".toList, ["the".toList, "D".toList, "the".toList]) ∧
    expected [.drop, .keep, .lit ['_']] (split '\t' "1\tthe\t_x".toList) = some ("1\tthe\t_".toList, ["the".toList]) ∧
    expected [.drop, .keep, .lit ['_']] (split '\t' "1\tthe\tx".toList) = none ∧
    expected [.drop, .lit ['_'], .keep] (split '\t' "1\t_x\tthe".toList) = none := by decide +kernel

example : ∃ s' f, construct shipped = .ok (s', f) ∧
    matchLine (reMatch ascii) f "the\tDT\tthe\t3".toList =
      .ok (some [some "the\tDT\tthe".toList, some "the".toList, some "DT".toList, some "the".toList]) ∧
    matchLine (reMatch ascii) f "the\t\tthe".toList = .ok none := by
  refine ⟨_, _, rfl, ?_, ?_⟩ <;> decide +kernel

/-! ## C182: lines of a file -/

theorem corpusLines_row (acc body rest : Str) (h : ∀ c ∈ body, isBreak c = false) :
    corpusLines acc (body ++ '\n' :: rest) = (acc.reverse ++ body ++ ['\n']) :: corpusLines [] rest := by
  induction body generalizing acc with
  | nil =>
    rw [List.nil_append, corpusLines, if_pos (by decide), if_neg (by rintro ⟨h, _⟩; exact absurd h (by decide))]
    simp
  | cons c cs ih =>
    rw [List.cons_append, corpusLines, h c (List.mem_cons_self ..), if_neg (by simp),
      ih _ (fun x hx => h x (List.mem_cons_of_mem _ hx))]
    simp

/-- Lines that are read as they stand: no line boundary inside, no white space at the ends. -/
def Fine (line : Str) : Prop := (∀ c ∈ line, isBreak c = false) ∧ (line = [] ∨ Trimmed line)

/-- The text of a file with these lines. -/
def textOf (lines : List Str) : Str := lines.flatMap (fun l => l ++ ['\n'])

theorem strip_fine {line : Str} (h : Fine line) : strip (line ++ ['\n']) = line := by
  rcases h.2 with rfl | ht
  · decide
  · have := strip_pad (p := []) (q := ['\n']) (s := line) (fun _ h => (nomatch h))
      (by intro c hc; rw [List.mem_singleton] at hc; subst hc; decide) ht
    simpa using this

theorem fileLines_text {lines : List Str} (h : ∀ l ∈ lines, Fine l) : fileLines (textOf lines) = lines := by
  unfold fileLines
  induction lines with
  | nil => rfl
  | cons l ls ih =>
    have hl := h l (List.mem_cons_self ..)
    have e : textOf (l :: ls) = l ++ '\n' :: textOf ls := by simp [textOf]
    rw [e, corpusLines_row [] l _ hl.1, List.map_cons, ih (fun x hx => h x (List.mem_cons_of_mem _ hx))]
    rw [List.reverse_nil, List.nil_append, strip_fine hl]

theorem mapM_lines {rx : Verif.Items.Regex} {f : Formatter} {ls : List Str} {g : Str → Line}
    (h : ∀ l ∈ ls, readLine rx f l = .ok (g l)) (k : Nat) :
    (ls.zipIdx k).mapM (fun p => do
      let l ← readLine rx f p.1
      return (p.2, l)) = .ok ((ls.zipIdx k).map (fun p => (p.2, g p.1))) := by
  induction ls generalizing k with
  | nil => rfl
  | cons l ls ih =>
    rw [List.zipIdx_cons, List.mapM_cons, ih (fun x hx => h x (List.mem_cons_of_mem _ hx)) (k + 1)]
    simp only [h l (List.mem_cons_self ..)]
    rfl

/-- C182, partial: if no line contains a line boundary of Unicode or has white space at its ends, then the lines of the file
are read as they stand, each with its number, counted from 1.  Missing: other lines, see `C182_false_break` and
`C182_false_shift`. -/
theorem C182_partial (rx : Verif.Items.Regex) (f : Formatter) {lines : List Str} (h : ∀ l ∈ lines, Fine l) :
    fileLines (textOf lines) = lines ∧
    ∀ g : Str → Line, (∀ l ∈ lines, readLine rx f l = .ok (g l)) →
      readText rx f (textOf lines) = .ok ((lines.zipIdx 1).map (fun p => (p.2, g p.1))) := by
  refine ⟨fileLines_text h, fun g hg => ?_⟩
  rw [readText, fileLines_text h]
  exact mapM_lines hg 1

/-- A row of a corpus in the shipped format. -/
inductive Row where
  | item (word pos lemma' : Str)
  | boundary
  | other (line : Str)
deriving DecidableEq

/-- Its line. -/
def Row.text : Row → Str
  | .item w p l => w ++ '\t' :: (p ++ '\t' :: l)
  | .boundary => artikel
  | .other line => line

/-- Columns that are not empty, without tabs and line boundaries, the outer ones without white space outside; other
lines (tags, empty lines, ...) have at most two columns and do not begin like a boundary. -/
def Row.Fine : Row → Prop
  | .item w p l => (∀ x ∈ [w, p, l], x ≠ [] ∧ '\t' ∉ x ∧ ∀ c ∈ x, isBreak c = false) ∧
      (∀ c, w.head? = some c → isSpace c = false) ∧ ∀ c, l.getLast? = some c → isSpace c = false
  | .boundary => True
  | .other line => Regex.Fine line ∧ line.count '\t' ≤ 1 ∧ ¬ artikel <+: line

/-- What a row should be read as. -/
def Row.line : Row → Line
  | .item w p l => .item [some (w ++ '\t' :: (p ++ '\t' :: l)), some w, some p, some l]
  | .boundary => .boundary
  | .other _ => .nothing

theorem Row.fine {r : Row} (h : r.Fine) : Regex.Fine r.text := by
  cases r with
  | other line => exact h.1
  | boundary => exact ⟨by decide +kernel, .inr ⟨⟨'<', by decide +kernel, by decide⟩, ⟨'>', by decide +kernel, by decide⟩⟩⟩
  | item w p l =>
    obtain ⟨h1, h2, h3⟩ := h
    obtain ⟨hw, _, hwb⟩ := h1 w (by simp)
    obtain ⟨hp, _, hpb⟩ := h1 p (by simp)
    obtain ⟨hl, _, hlb⟩ := h1 l (by simp)
    have htab : isBreak '\t' = false := by decide
    refine ⟨?_, .inr ⟨?_, ?_⟩⟩
    · intro c hc
      simp only [Row.text, List.mem_append, List.mem_cons] at hc
      rcases hc with hc | rfl | hc | rfl | hc
      · exact hwb c hc
      · exact htab
      · exact hpb c hc
      · exact htab
      · exact hlb c hc
    · cases w with
      | nil => exact absurd rfl hw
      | cons a w => exact ⟨a, rfl, h2 a rfl⟩
    · obtain ⟨c, hc⟩ : ∃ c, l.getLast? = some c := by
        cases hg : l.getLast? with
        | none => exact absurd (List.getLast?_eq_none_iff.1 hg) hl
        | some c => exact ⟨c, rfl⟩
      refine ⟨c, ?_, h3 c hc⟩
      have : Row.text (.item w p l) = (w ++ '\t' :: (p ++ ['\t'])) ++ l := by simp [Row.text]
      rw [this, List.getLast?_append, hc]
      rfl

theorem shipped_line (u : Tables) {s' : Settings} {f : Formatter} (hf : construct shipped = .ok (s', f)) {r : Row} (h : r.Fine) :
    readLine (reMatch u) f r.text = .ok r.line := by
  have hm := (C181_kept u hf (.inr rfl) 2 shipped_machine r.text)
  unfold readLine
  cases r with
  | boundary =>
    rw [hm.2.2 (.inl (by decide +kernel))]
    obtain ⟨s1, f1, hf1, _, _, _, hs⟩ := shipped_ok
    rw [hf] at hf1
    obtain ⟨rfl, rfl⟩ := Prod.mk.inj (Except.ok.inj hf1)
    simp only [bind, Except.bind, separatorLine, hs, Verif.Items.attr]
    have hc : compile artikel = some (chain (artikel.map chrRe), 0) :=
      compile_adds (lex_word (by decide +kernel)) (Adds.word _)
    have : (reMatch u artikel (Row.text .boundary)).isSome = true := by
      rw [reMatch, hc]
      simp only [Re.exec]
      rw [runs_word, if_pos (show artikel <+: Row.text .boundary from List.prefix_rfl)]
      rfl
    simp only [this]
    rfl
  | other line =>
    rw [hm.2.2 (.inl (by rw [Verif.Items.split_length]; exact Nat.succ_le_succ h.2.1))]
    obtain ⟨s1, f1, hf1, _, _, _, hs⟩ := shipped_ok
    rw [hf] at hf1
    obtain ⟨rfl, rfl⟩ := Prod.mk.inj (Except.ok.inj hf1)
    simp only [bind, Except.bind, separatorLine, hs, Verif.Items.attr]
    have hc : compile artikel = some (chain (artikel.map chrRe), 0) :=
      compile_adds (lex_word (by decide +kernel)) (Adds.word _)
    have : (reMatch u artikel (Row.text (.other line))).isSome = false := by
      rw [reMatch, hc]
      simp only [Re.exec]
      rw [runs_word, if_neg (show ¬ artikel <+: Row.text (.other line) from h.2.2)]
      rfl
    simp only [this]
    rfl
  | item w p l =>
    obtain ⟨h1, _, _⟩ := h
    obtain ⟨hw, hwt, _⟩ := h1 w (by simp)
    obtain ⟨hp, hpt, _⟩ := h1 p (by simp)
    obtain ⟨hl, hlt, _⟩ := h1 l (by simp)
    have hsp : split '\t' (Row.text (.item w p l)) = [w, p, l] := by
      rw [Row.text, split_append _ _ _ hwt, split_append _ _ _ hpt, split_noc _ _ hlt]
    have h2 := (hm.1 [some (w ++ '\t' :: (p ++ '\t' :: l)), some w, some p, some l]).2
      ⟨by rw [hsp]; simp, by rw [hsp]; simp only [List.take_succ_cons, List.take_zero]; intro c hc; exact (h1 c hc).1, by rw [hsp]; rfl⟩
    rw [h2]
    rfl

/-- C182 for the settings shipped with the package: the rows of a corpus are read in order, as rows, with their line numbers;
type and collocate are `lemma/pos`, the token is `word/pos/file/line`. -/
theorem C182_shipped (u : Tables) {s' : Settings} {f : Formatter} (hf : construct shipped = .ok (s', f)) {rows : List Row}
    (h : ∀ r ∈ rows, r.Fine) :
    readText (reMatch u) f (textOf (rows.map Row.text)) = .ok ((rows.zipIdx 1).map (fun p => (p.2, p.1.line))) ∧
    ∀ w p l m, Row.line (.item w p l) = .item m → getType f m = .ok (l ++ '/' :: p) ∧ getColloc f m = .ok (l ++ '/' :: p) ∧
      ∀ fid lid, getToken f m fid lid = .ok (w ++ '/' :: (p ++ '/' :: (fid ++ '/' :: lid))) := by
  refine ⟨?_, ?_⟩
  · rw [readText, fileLines_text (by
      intro l hl
      obtain ⟨r, hr, rfl⟩ := List.mem_map.1 hl
      exact Row.fine (h r hr))]
    have key : ∀ (rs : List Row) (k : Nat), (∀ r ∈ rs, r.Fine) →
        ((rs.map Row.text).zipIdx k).mapM (fun p => do
          let l ← readLine (reMatch u) f p.1
          return (p.2, l)) = (.ok ((rs.zipIdx k).map (fun p => (p.2, p.1.line))) : Except Err (List (Nat × Line))) := by
      intro rs
      induction rs with
      | nil => intro k _; rfl
      | cons r rs ih =>
        intro k hr
        rw [List.map_cons, List.zipIdx_cons, List.mapM_cons, ih (k + 1) (fun x hx => hr x (List.mem_cons_of_mem _ hx))]
        simp only [shipped_line u hf (hr r (List.mem_cons_self ..))]
        rfl
    exact key rows 1 h
  · intro w p l m hm
    simp only [Row.line, Line.item.injEq] at hm
    subst hm
    obtain ⟨s1, f1, hf1, ht, hc, hto, hs⟩ := shipped_ok
    rw [hf] at hf1
    obtain ⟨rfl, rfl⟩ := Prod.mk.inj (Except.ok.inj hf1)
    refine ⟨?_, ?_, fun fid lid => ?_⟩
    · rw [getType, ht]; rfl
    · rw [getColloc, hc]; rfl
    · rw [getToken, hto]; rfl

/-- The number of rows with a type. -/
def rowCount (rows : List Row) (k : Str) : Nat :=
  rows.countP (fun r => match r with | .item _ p l => decide (l ++ '/' :: p = k) | _ => false)

/-- C182 for counting: in the frequency list of a file in the shipped format the frequency of `lemma/pos` is the number of its
rows. -/
theorem C182_counts (u : Tables) {s' : Settings} {f : Formatter} (hf : construct shipped = .ok (s', f)) {rows : List Row}
    (h : ∀ r ∈ rows, r.Fine) (k : Str) :
    Verif.Corpus.occurrences (asFormatter (reMatch u) f) k (fileLines (textOf (rows.map Row.text))) = rowCount rows k := by
  rw [fileLines_text (by
      intro l hl
      obtain ⟨r, hr, rfl⟩ := List.mem_map.1 hl
      exact Row.fine (h r hr)), Verif.Corpus.occurrences, rowCount, List.countP_map]
  refine List.countP_congr fun r hr => ?_
  have hlm := lineMachine_of hf shipped_machine
  have hread := shipped_line u hf (h r hr)
  have hmatch : (asFormatter (reMatch u) f).matchLine r.text = match r.line with | .item m => some m | _ => none := by
    simp only [asFormatter, hlm]
    unfold readLine matchLine at hread
    rw [hlm] at hread
    simp only [Verif.Items.attr, bind, Except.bind, pure, Except.pure] at hread
    cases hx : reMatch u (machine ['\\', 't'] (List.replicate (2 + 1) .keep)) r.text with
    | some m =>
      rw [hx] at hread
      simp only [Except.ok.injEq] at hread
      rw [← hread]
    | none =>
      rw [hx] at hread
      simp only at hread
      cases r with
      | boundary => rfl
      | other line => rfl
      | item w p l =>
        exfalso
        split at hread
        · cases hread
        · split at hread <;> cases hread
  simp only [Function.comp_apply, hmatch]
  cases r with
  | boundary => simp [Row.line]
  | other line => simp [Row.line]
  | item w p l =>
    have ht := ((C182_shipped u hf (rows := []) (by simp)).2 w p l _ rfl).1
    simp only [Row.line]
    simp only [asFormatter, ht]

/-- Two rows, a boundary and a tag: lines, tokens and counts. -/
example : (∀ r ∈ [Row.item ['a'] ['N'] ['b'], .boundary, .other ['<', 's', '>'], .item ['c'] ['N'] ['b']], r.Fine) ∧
    textOf ([Row.item ['a'] ['N'] ['b'], .boundary, .other ['<', 's', '>'], .item ['c'] ['N'] ['b']].map Row.text) =
      "a\tN\tb\n</artikel>\n<s>\nc\tN\tb\n".toList ∧
    rowCount [Row.item ['a'] ['N'] ['b'], .boundary, .other ['<', 's', '>'], .item ['c'] ['N'] ['b']] "b/N".toList = 2 := by
  refine ⟨?_, by decide +kernel, by decide +kernel⟩
  intro r hr
  simp only [List.mem_cons, List.not_mem_nil, or_false] at hr
  rcases hr with rfl | rfl | rfl | rfl
  · exact ⟨by simp; decide, by intro c hc; simp at hc; subst hc; decide, by intro c hc; simp at hc; subst hc; decide⟩
  · trivial
  · exact ⟨⟨by decide, .inr ⟨⟨'<', rfl, by decide⟩, ⟨'>', rfl, by decide⟩⟩⟩, by decide, by decide⟩
  · exact ⟨by simp; decide, by intro c hc; simp at hc; subst hc; decide, by intro c hc; simp at hc; subst hc; decide⟩

/-- C182 is false: a line that contains U+2028 (or another line boundary of Unicode) is read as two lines, neither of
them an item line here, and the numbers of the following lines move by one. -/
theorem C182_false_break : ∃ (s' : Settings) (f : Formatter) (word : Str), construct shipped = .ok (s', f) ∧
    '\t' ∉ word ∧ '\n' ∉ word ∧ Trimmed word ∧
    readText (reMatch ascii) f (textOf ["x\tN\tx".toList ++ word, "c\tN\tc".toList]) =
      .ok [(1, .item [some "x\tN\txa".toList, some ['x'], some ['N'], some ['x', 'a']]), (2, .nothing),
        (3, .item [some "c\tN\tc".toList, some ['c'], some ['N'], some ['c']])] := by
  refine ⟨_, _, ['a', '\u2028', 'b'], rfl, by decide, by decide, ⟨⟨'a', rfl, by decide⟩, ⟨'b', rfl, by decide⟩⟩, ?_⟩
  decide +kernel

/-- C182 is false: the tab before an empty first column is stripped, so that the other columns move to the left and the line
is read as an item line, although the line machine rejects the line as it stands. -/
theorem C182_false_shift : ∃ (s' : Settings) (f : Formatter) (line : Str), construct shipped = .ok (s', f) ∧
    matchLine (reMatch ascii) f line = .ok none ∧
    readText (reMatch ascii) f (textOf [line]) =
      .ok [(1, .item [some "DT\tthe\t3".toList, some "DT".toList, some "the".toList, some ['3']])] := by
  refine ⟨_, _, "\tDT\tthe\t3".toList, rfl, ?_, ?_⟩ <;> decide +kernel

/-! ## C183: boundary machines -/

theorem compile_word {w : Str} (h : ∀ c ∈ w, Plain c) : compile w = some (chain (w.map chrRe), 0) :=
  compile_adds (lex_word h) (Adds.word w)

/-- Plain text as a pattern matches the texts that begin with it. -/
theorem reMatch_word (u : Tables) {w : Str} (h : ∀ c ∈ w, Plain c) (text : Str) :
    reMatch u w text = if w <+: text then some [some w] else none := by
  rw [reMatch, compile_word h]
  simp only [Re.exec]
  rw [runs_word]
  by_cases hp : w <+: text
  · rw [if_pos hp, if_pos hp]
    show some [some (text.take (0 + w.length))] = _
    rw [Nat.zero_add, ← List.prefix_iff_eq_take.1 hp]
  · rw [if_neg hp, if_neg hp]
    rfl

/-- `^text$` matches the text itself, and the text with a newline after it. -/
theorem reMatch_exact (u : Tables) {w : Str} (h : ∀ c ∈ w, Plain c) (text : Str) :
    reMatch u ('^' :: (w ++ ['$'])) text = if text = w ∨ text = w ++ ['\n'] then some [some w] else none := by
  have hc : compile ('^' :: (w ++ ['$'])) = some (chain (.bol :: (w.map chrRe ++ [.eol])), 0) := by
    have hl : lex .out (['^'] ++ w ++ ['$']) = some ([.bol] ++ w.map (fun c => .cls (.one (.chr c))) ++ [.eol]) :=
      lex_two (lex_two (by decide) (lex_word h)) (by decide)
    have h1 : Adds [.bol] (fun _ => [.bol]) 0 := fun f st n => rfl
    have h2 : Adds [.eol] (fun _ => [.eol]) 0 := fun f st n => rfl
    have := compile_adds hl ((h1.append (Adds.word w)).append h2)
    simpa using this
  rw [reMatch, hc]
  simp only [Re.exec]
  rw [runs_chain_cons]
  have hb : (Re.bol).runs u ⟨0, text, []⟩ = [⟨0, text, []⟩] := by simp [Re.runs]
  rw [hb]
  simp only [List.flatMap_cons, List.flatMap_nil, List.append_nil]
  rw [runs_chain_append, runs_word]
  by_cases hp : w <+: text
  · rw [if_pos hp]
    obtain ⟨v, rfl⟩ := hp
    simp only [List.flatMap_cons, List.flatMap_nil, List.append_nil]
    rw [runs_chain_cons, Re.runs]
    have hr : (St.skip ⟨0, w ++ v, []⟩ w.length).rest = v := by simp [St.skip]
    rw [hr]
    have hv : (v = [] ∨ v = ['\n']) ↔ (w ++ v = w ∨ w ++ v = w ++ ['\n']) := by
      constructor
      · rintro (rfl | rfl)
        · exact .inl (List.append_nil _)
        · exact .inr rfl
      · rintro (e | e)
        · exact .inl (List.append_right_eq_self.1 e)
        · exact .inr (List.append_cancel_left e)
    by_cases h0 : v = [] ∨ v = ['\n']
    · rw [if_pos h0, if_pos (hv.1 h0)]
      show some [some ((w ++ v).take (0 + w.length))] = _
      rw [Nat.zero_add, List.take_left]
    · rw [if_neg h0, if_neg (fun e => h0 (hv.2 e))]
      rfl
  · rw [if_neg hp, if_neg]
    · rfl
    · rintro (rfl | rfl)
      · exact hp List.prefix_rfl
      · exact hp (List.prefix_append _ _)

/-- C183, partial: with the text of the boundary lines in `^…$` as boundary machine (and a line machine that rejects
them), exactly the lines of the file with that text are boundaries: handlers strip the lines, and a stripped line does not end
in a newline.  Missing: the text alone, as in the shipped settings, see `C183_text`. -/
theorem C183_anchored_partial (u : Tables) {s s' : Settings} {f : Formatter} (h : construct s = .ok (s', f))
    (hm : Dict.get? s "boundary-detection-mechanism" = some "single".toList) {lm w : Str}
    (hl : Dict.get? s "line-machine" = some lm) (hw : ∀ c ∈ w, Plain c)
    (hsep : Dict.get? s "separator-line-machine" = some ('^' :: (w ++ ['$']))) (hlm : reMatch u lm w = none) (raw : Str) :
    readLine (reMatch u) f (strip raw) = .ok .boundary ↔ strip raw = w := by
  obtain ⟨sep, h1, _, h2, _, _⟩ := Verif.Items.C85_partial s s' f (reMatch u) h hm lm hl (strip raw)
  rw [hsep, Option.some.injEq] at h1
  subst h1
  rw [h2, reMatch_exact u hw]
  have hnl : strip raw ≠ w ++ ['\n'] := by
    intro e
    have hr : (strip raw).reverse = '\n' :: w.reverse := by rw [e]; simp
    unfold strip at hr
    rw [List.reverse_reverse] at hr
    have : isSpace '\n' = false := by
      have := List.head?_dropWhile_not isSpace ((raw.dropWhile isSpace).reverse)
      rw [hr] at this
      simpa using this
    exact absurd this (by decide)
  constructor
  · rintro ⟨_, hb⟩
    split at hb
    · rename_i hc
      rcases hc with hc | hc
      · exact hc
      · exact absurd hc hnl
    · simp at hb
  · intro e
    rw [e, if_pos (.inl rfl)]
    exact ⟨hlm, rfl⟩

/-- C183, exact, for the text alone as boundary machine: boundaries are the lines that begin with that text and that the line machine
rejects. -/
theorem C183_text (u : Tables) {s s' : Settings} {f : Formatter} (h : construct s = .ok (s', f))
    (hm : Dict.get? s "boundary-detection-mechanism" = some "single".toList) {lm w : Str}
    (hl : Dict.get? s "line-machine" = some lm) (hw : ∀ c ∈ w, Plain c)
    (hsep : Dict.get? s "separator-line-machine" = some w) (line : Str) :
    readLine (reMatch u) f line = .ok .boundary ↔ reMatch u lm line = none ∧ w <+: line := by
  obtain ⟨sep, h1, _, h2, _, _⟩ := Verif.Items.C85_partial s s' f (reMatch u) h hm lm hl line
  rw [hsep, Option.some.injEq] at h1
  subst h1
  rw [h2, reMatch_word u hw]
  constructor
  · rintro ⟨ha, hb⟩
    refine ⟨ha, ?_⟩
    split at hb
    · assumption
    · simp at hb
  · rintro ⟨ha, hb⟩
    exact ⟨ha, by rw [if_pos hb]; rfl⟩

/-- C183 is false: with the shipped settings a line that only begins with the boundary text is a boundary; and a line
with the boundary text as its first column is an item, not a boundary. -/
theorem C183_false : ∃ (s' : Settings) (f : Formatter), construct shipped = .ok (s', f) ∧
    readLine (reMatch ascii) f "</artikel>s und mehr".toList = .ok .boundary ∧
    readLine (reMatch ascii) f (artikel ++ ['\t', 'N', '\t', 'x']) =
      .ok (.item [some (artikel ++ ['\t', 'N', '\t', 'x']), some artikel, some ['N'], some ['x']]) := by
  refine ⟨_, _, rfl, ?_, ?_⟩ <;> decide +kernel

example : Dict.get? (Dict.set (Dict.set shipped "separator-line-machine" "^</s>$".toList) "single-boundary-machine" "^</s>$".toList)
    "separator-line-machine" = some ('^' :: ("</s>".toList ++ ['$'])) ∧ (∀ c ∈ "</s>".toList, Plain c) ∧
    reMatch ascii "([^\\t]+)\\t([^\\t]+)\\t([^\\t]+)".toList "</s>".toList = none ∧
    (∃ s' f, construct (Dict.set (Dict.set shipped "separator-line-machine" "^</s>$".toList) "single-boundary-machine" "^</s>$".toList) =
      .ok (s', f) ∧ readLine (reMatch ascii) f (strip " </s>\r\n".toList) = .ok .boundary ∧
      readLine (reMatch ascii) f (strip "</s>x\n".toList) = .ok .nothing) := by
  refine ⟨by decide +kernel, by decide +kernel, by decide +kernel, ⟨_, _, rfl, ?_, ?_⟩⟩ <;> decide +kernel

end Verif.Regex
