import Verif.Regex.PropsTemplates
import Verif.Regex.Corpus
import Verif.Dep.PropsFile

/-!
# C187: from the text of a dependency corpus to the graphs of its sentences
-/

namespace Verif.Regex

open Verif.Py
open Verif.Vocab.Plain (Str isSpace isBreak strip)
open Verif.Items (split join)
open Verif.Dep (LineFormat Word WordLine DepSettings Represents readSentence readEnd sentenceGraph Graph Trimmed)

/-! ## Specification -/

/-- A word of the corpus: its columns, its number in the sentence and that of its head. -/
structure DWord where
  cols : List Str
  id : Nat
  head : Nat

/-- The text of its line. -/
def DWord.text (w : DWord) : Str := join '\t' w.cols

/-- What it has in a column. -/
def DWord.val (columns : List String) (w : DWord) (c : String) : String := String.ofList ((w.cols[columns.idxOf c]?).getD [])

/-- A sentence of the corpus: the lines before its first word (such as `<s id="1">`) and its words. -/
structure DSent where
  before : List Str
  words : List DWord

/-- Its lines; `close` is the line that ends sentences. -/
def DSent.lines (close : Str) (s : DSent) : List Str := s.before ++ s.words.map DWord.text ++ [close]

/-- The word in line `k`. -/
def DWord.at (columns : List String) (w : DWord) (k : Nat) : Word := ⟨k, String.ofList w.text, w.id, w.head, w.val columns⟩

/-- The words of the sentences with their line numbers, the first line being line `k`. -/
def numbered (columns : List String) : Nat → List DSent → List (List Word)
  | _, [] => []
  | k, s :: ss => ((s.words.zipIdx (k + s.before.length)).map (fun p => p.1.at columns p.2)) ::
      numbered columns (k + s.before.length + s.words.length + 1) ss

/-- A well-formed word: one text for every column, not empty, without tabs and line boundaries; no white space at the ends of the line;
the two numbers are read as numbers. -/
structure DWord.Good (toInt : String → Option Nat) (columns : List String) (currID headID : String) (close : Str) (w : DWord) : Prop where
  len : w.cols.length = columns.length
  cell : ∀ c ∈ w.cols, c ≠ [] ∧ '\t' ∉ c ∧ ∀ x ∈ c, isBreak x = false
  trimmed : Trimmed w.text
  index : toInt (w.val columns currID) = some w.id
  headIndex : toInt (w.val columns headID) = some w.head
  apart : ¬ close <+: w.text

/-- A line before the words: not read by the line machine (no tab), nor as the end of a sentence. -/
structure Aside (close line : Str) : Prop where
  fine : Fine line
  noTab : '\t' ∉ line
  apart : ¬ close <+: line

structure DSent.Good (toInt : String → Option Nat) (columns : List String) (currID headID : String) (close : Str) (s : DSent) : Prop where
  before : ∀ l ∈ s.before, Aside close l
  words : ∀ w ∈ s.words, w.Good toInt columns currID headID close
  nonempty : s.words ≠ []
  ids : (s.words.map DWord.id).Nodup

/-! ## Proofs -/

theorem mem_join {c x : Char} : ∀ {l : List Str}, x ∈ join c l → x = c ∨ ∃ s ∈ l, x ∈ s := by
  intro l
  induction l with
  | nil => intro h; cases h
  | cons s ts ih =>
    intro h
    by_cases hts : ts = []
    · subst hts
      exact .inr ⟨s, by simp, h⟩
    · rw [Verif.Items.join_cons c s hts, List.mem_append, List.mem_cons] at h
      rcases h with h | h | h
      · exact .inr ⟨s, by simp, h⟩
      · exact .inl h
      · rcases ih h with h | ⟨t, ht, hx⟩
        · exact .inl h
        · exact .inr ⟨t, List.mem_cons_of_mem _ ht, hx⟩

section
variable {u : Tables} {toInt : String → Option Nat} {tab close sep : Str} {columns nodeAttr : List String} {ea : List String}
  {currID headID : String}

theorem DWord.Good.fine {w : DWord} (h : w.Good toInt columns currID headID close) : Fine w.text := by
  refine ⟨fun x hx => ?_, .inr h.trimmed⟩
  rcases mem_join hx with rfl | ⟨s, hs, hx⟩
  · decide
  · exact (h.cell s hs).2.2 x hx

theorem DWord.Good.split {w : DWord} (h : w.Good toInt columns currID headID close) (hc : columns ≠ []) : split '\t' w.text = w.cols := by
  apply Verif.Items.split_join
  · intro e
    have := h.len
    rw [e] at this
    exact hc (List.length_eq_zero_iff.1 this.symm)
  · exact fun s hs => (h.cell s hs).2.1

theorem groups_word (ht : IsTab tab) {n : Nat} (hn : columns.length = n + 1) {w : DWord} (h : w.Good toInt columns currID headID close) :
    (reMatch u (machine tab (List.replicate (n + 1) .keep)) w.text) = some (some w.text :: w.cols.map some) := by
  have hc : columns ≠ [] := by intro e; rw [e] at hn; simp at hn
  rw [exec_machine u ht (by simp) (by intro k hk; rw [List.eq_of_mem_replicate hk]; trivial), h.split hc, expected_keep]
  have hl : w.cols.length = n + 1 := by rw [h.len, hn]
  have htk : w.cols.take (n + 1) = w.cols := by rw [← hl, List.take_length]
  rw [htk, if_pos ⟨by omega, fun c hc => (h.cell c hc).1⟩]
  rfl

theorem groups_aside (ht : IsTab tab) {n : Nat} (hn : 1 ≤ n) {line : Str} (h : '\t' ∉ line) :
    reMatch u (machine tab (List.replicate (n + 1) .keep)) line = none := by
  rw [exec_machine u ht (by simp) (by intro k hk; rw [List.eq_of_mem_replicate hk]; trivial), Verif.Items.split_noc _ _ h, expected_keep,
    if_neg (by rw [List.length_singleton]; omega)]
  rfl

/-- The two ways to write the machine of the line that ends sentences. -/
def IsSep (close sep : Str) : Prop := sep = close ∨ sep = '^' :: (close ++ ['$'])

theorem sep_close (hp : ∀ c ∈ close, Plain c) (hs : IsSep close sep) : (reMatch u sep close).isSome = true := by
  rcases hs with rfl | rfl
  · rw [reMatch_word u hp, if_pos List.prefix_rfl]; rfl
  · rw [reMatch_exact u hp, if_pos (.inl rfl)]; rfl

theorem sep_other (hp : ∀ c ∈ close, Plain c) (hs : IsSep close sep) {line : Str} (h : ¬ close <+: line) : (reMatch u sep line).isSome = false := by
  rcases hs with rfl | rfl
  · rw [reMatch_word u hp, if_neg h]; rfl
  · rw [reMatch_exact u hp, if_neg]
    · rfl
    · rintro (rfl | rfl)
      · exact h List.prefix_rfl
      · exact h (List.prefix_append _ _)

/-- The format. -/
abbrev fmtOf (u : Tables) (toInt : String → Option Nat) (tab sep : Str) (n : Nat) (columns nodeAttr ea : List String) (currID headID : String) :
    LineFormat :=
  depFormat u toInt (machine tab (List.replicate (n + 1) .keep)) sep columns nodeAttr (some ea) currID headID

theorem read_before (ht : IsTab tab) {n : Nat} (hn : 1 ≤ n) (hp : ∀ c ∈ close, Plain c) (hs : IsSep close sep)
    {ls : List Str} (h : ∀ l ∈ ls, Aside close l) (acc : List (List (Nat × String))) (cur : List (Nat × String)) (k : Nat) :
    (ls.map String.ofList).foldl (Verif.Dep.readLine (fmtOf u toInt tab sep n columns nodeAttr ea currID headID)) (acc, cur, k) =
      (acc, cur, k + ls.length) := by
  induction ls generalizing k with
  | nil => rfl
  | cons l ls ih =>
    have hl := h l (List.mem_cons_self ..)
    rw [List.map_cons, List.foldl_cons]
    have : Verif.Dep.readLine (fmtOf u toInt tab sep n columns nodeAttr ea currID headID) (acc, cur, k) (String.ofList l) = (acc, cur, k + 1) := by
      unfold Verif.Dep.readLine
      simp only [depFormat, String.toList_ofList, groups_aside ht hn hl.noTab, sep_other hp hs hl.apart]
      rfl
    rw [this, ih (fun x hx => h x (List.mem_cons_of_mem _ hx)), List.length_cons]
    congr 2
    omega

theorem read_words (ht : IsTab tab) {n : Nat} (hc : columns.length = n + 1) (hp : ∀ c ∈ close, Plain c) (hs : IsSep close sep)
    {ws : List DWord} (h : ∀ w ∈ ws, w.Good toInt columns currID headID close) (acc : List (List (Nat × String)))
    (cur : List (Nat × String)) (k : Nat) :
    (ws.map (fun w => String.ofList w.text)).foldl (Verif.Dep.readLine (fmtOf u toInt tab sep n columns nodeAttr ea currID headID)) (acc, cur, k) =
      (acc, cur ++ (ws.zipIdx (k + 1)).map (fun p => (p.2, String.ofList p.1.text)), k + ws.length) := by
  induction ws generalizing cur k with
  | nil => simp
  | cons w ws ih =>
    have hw := h w (List.mem_cons_self ..)
    rw [List.map_cons, List.foldl_cons]
    have : Verif.Dep.readLine (fmtOf u toInt tab sep n columns nodeAttr ea currID headID) (acc, cur, k) (String.ofList w.text) =
        (acc, cur ++ [(k + 1, String.ofList w.text)], k + 1) := by
      unfold Verif.Dep.readLine
      simp only [depFormat, String.toList_ofList, groups_word ht hc hw, sep_other hp hs hw.apart]
      rfl
    rw [this, ih (fun x hx => h x (List.mem_cons_of_mem _ hx)), List.zipIdx_cons, List.map_cons, List.length_cons, List.append_assoc]
    congr 2
    omega

theorem read_sents (ht : IsTab tab) {n : Nat} (hn : 1 ≤ n) (hc : columns.length = n + 1) (hp : ∀ c ∈ close, Plain c) (hct : '\t' ∉ close)
    (hs : IsSep close sep) {ss : List DSent} (h : ∀ s ∈ ss, s.Good toInt columns currID headID close) (acc : List (List (Nat × String))) (k : Nat) :
    ((ss.flatMap (DSent.lines close)).map String.ofList).foldl
        (Verif.Dep.readLine (fmtOf u toInt tab sep n columns nodeAttr ea currID headID)) (acc, [], k) =
      (acc ++ (numbered columns (k + 1) ss).map (fun ws => ws.map (fun w => (w.lid, w.line))), [],
        k + (ss.flatMap (DSent.lines close)).length) := by
  induction ss generalizing acc k with
  | nil => simp [numbered]
  | cons s ss ih =>
    have hsg := h s (List.mem_cons_self ..)
    have hlast : ∀ (acc : List (List (Nat × String))) (cur : List (Nat × String)) (k : Nat),
        Verif.Dep.readLine (fmtOf u toInt tab sep n columns nodeAttr ea currID headID) (acc, cur, k) (String.ofList close) =
          (acc ++ [cur], [], k + 1) := by
      intro acc cur k
      unfold Verif.Dep.readLine
      simp only [depFormat, String.toList_ofList, groups_aside ht hn hct, sep_close hp hs]
      rfl
    have hone : ((s.lines close).map String.ofList).foldl
        (Verif.Dep.readLine (fmtOf u toInt tab sep n columns nodeAttr ea currID headID)) (acc, [], k) =
        (acc ++ [(s.words.zipIdx (k + 1 + s.before.length)).map (fun p => (p.2, String.ofList p.1.text))], [],
          k + (s.before.length + s.words.length + 1)) := by
      rw [DSent.lines, List.map_append, List.map_append, List.foldl_append, List.foldl_append, read_before ht hn hp hs hsg.before,
        List.map_map]
      have : s.words.map (String.ofList ∘ DWord.text) = s.words.map (fun w => String.ofList w.text) := rfl
      rw [this, read_words ht hc hp hs hsg.words, List.map_singleton, List.foldl_cons, List.foldl_nil, hlast, List.nil_append]
      have e1 : k + s.before.length + 1 = k + 1 + s.before.length := by omega
      rw [e1]
      congr 2
      omega
    rw [List.flatMap_cons, List.map_append, List.foldl_append, hone, ih (fun x hx => h x (List.mem_cons_of_mem _ hx)), numbered]
    have e2 : k + (s.before.length + s.words.length + 1) + 1 = k + 1 + s.before.length + s.words.length + 1 := by omega
    have e3 : (s.lines close).length = s.before.length + s.words.length + 1 := by
      simp [DSent.lines]
      omega
    rw [e2, List.map_cons, List.map_map, List.append_assoc, List.length_append, e3]
    congr 2
    omega

theorem wordLine_at (ht : IsTab tab) {n : Nat} (hc : columns.length = n + 1) (hd : columns.Nodup) {w : DWord}
    (h : w.Good toInt columns currID headID close) (k : Nat) :
    WordLine (fmtOf u toInt tab sep n columns nodeAttr ea currID headID) (w.at columns k) where
  cols := by
    refine ⟨(some w.text :: w.cols.map some).map (fun g => String.ofList (g.getD [])), ?_, ?_⟩
    · show (reMatch u _ (String.ofList w.text).toList).map _ = _
      rw [String.toList_ofList, groups_word ht hc h]
      rfl
    · intro i c hi
      have hi : columns[i]? = some c := hi
      have hlt : i < columns.length := (List.getElem?_eq_some_iff.1 hi).1
      have hx : columns.idxOf c = i := by
        have := (List.getElem?_eq_some_iff.1 hi).2
        rw [← this, hd.idxOf_getElem i hlt]
      have hcl : i < w.cols.length := by rw [h.len]; exact hlt
      show ((some w.text :: w.cols.map some).map _)[i + 1]? = some (w.val columns c)
      rw [List.getElem?_map, List.getElem?_cons_succ, List.getElem?_map, List.getElem?_eq_getElem hcl, DWord.val, hx,
        List.getElem?_eq_getElem hcl]
      rfl
  index := h.index
  headIndex := h.headIndex

/-- Every sentence of `numbered` comes from a sentence of the corpus. -/
theorem numbered_mem {k : Nat} {ss : List DSent} {ws : List Word} (h : ws ∈ numbered columns k ss) :
    ∃ s ∈ ss, ∃ j, ws = (s.words.zipIdx j).map (fun p => p.1.at columns p.2) := by
  induction ss generalizing k with
  | nil => cases h
  | cons s ss ih =>
    rw [numbered, List.mem_cons] at h
    rcases h with rfl | h
    · exact ⟨s, List.mem_cons_self .., _, rfl⟩
    · obtain ⟨s', hs, j, e⟩ := ih h
      exact ⟨s', List.mem_cons_of_mem _ hs, j, e⟩

/-- **C187.** The text of a dependency corpus — sentences of word lines with tab-separated columns, each ended by its closing line, other
lines without tabs before the words — is read as these sentences, every word with its line number, and the graph of every sentence
has exactly its words with their columns and their dependencies.  The line machine is the one of the documentation, with as many
kept columns as the settings name; the closing line is given as text or as `^…$`. -/
theorem C187_partial (ht : IsTab tab) {n : Nat} (hn : 1 ≤ n) (hc : columns.length = n + 1)
    (S : DepSettings (fmtOf u toInt tab sep n columns nodeAttr ea currID headID) ea)
    (hp : ∀ c ∈ close, Plain c) (hf : Fine close) (hct : '\t' ∉ close) (hs : IsSep close sep)
    {ss : List DSent} (h : ∀ s ∈ ss, s.Good toInt columns currID headID close) :
    readSentence (fmtOf u toInt tab sep n columns nodeAttr ea currID headID) (depLines (textOf (ss.flatMap (DSent.lines close)))) =
        (numbered columns 1 ss).map (fun ws => ws.map (fun w => (w.lid, w.line))) ∧
    ∀ ws ∈ numbered columns 1 ss, ∃ g : Graph,
      sentenceGraph (fmtOf u toInt tab sep n columns nodeAttr ea currID headID) (ws.map (fun w => (w.lid, w.line))) = .ok g ∧
      Represents (fmtOf u toInt tab sep n columns nodeAttr ea currID headID) ea ws g := by
  constructor
  · have hfine : ∀ l ∈ ss.flatMap (DSent.lines close), Fine l := by
      intro l hl
      obtain ⟨s, hsm, hl⟩ := List.mem_flatMap.1 hl
      rw [DSent.lines, List.mem_append, List.mem_append] at hl
      rcases hl with (hl | hl) | hl
      · exact ((h s hsm).before l hl).fine
      · obtain ⟨w, hw, rfl⟩ := List.mem_map.1 hl
        exact ((h s hsm).words w hw).fine
      · rw [List.mem_singleton] at hl
        exact hl ▸ hf
    unfold readSentence depLines
    rw [fileLines_text hfine, read_sents ht hn hc hp hct hs h]
    rfl
  · intro ws hw
    obtain ⟨s, hsm, j, rfl⟩ := numbered_mem hw
    have hsg := h s hsm
    have hz : ∀ p ∈ s.words.zipIdx j, p.1 ∈ s.words := fun p hp => (List.mem_zipIdx hp).2.2 ▸ List.getElem_mem _
    refine Verif.Dep.C69_graph S _ ?_ ?_ ?_
    · intro e
      have := congrArg List.length e
      simp only [List.length_map, List.length_zipIdx, List.length_nil] at this
      exact hsg.nonempty (List.length_eq_zero_iff.1 this)
    · intro w hw
      obtain ⟨p, hpm, rfl⟩ := List.mem_map.1 hw
      exact wordLine_at ht hc S.distinct (hsg.words p.1 (hz p hpm)) p.2
    · rw [List.map_map]
      have : (s.words.zipIdx j).map (Word.id ∘ fun p => p.1.at columns p.2) = s.words.map DWord.id := by
        have e : (Word.id ∘ fun p : DWord × Nat => p.1.at columns p.2) = DWord.id ∘ Prod.fst := rfl
        rw [e, ← List.map_map, List.zipIdx_map_fst]
      rw [this]
      exact hsg.ids

end

/-! ### The sample corpus -/

/-- Digits. -/
def digits (s : String) : Option Nat := if s.toList ≠ [] ∧ s.toList.all Char.isDigit then
  some (s.toList.foldl (fun n c => 10 * n + (c.toNat - 48)) 0) else none

/-- The settings of the sample corpus. -/
abbrev stanford : LineFormat :=
  fmtOf ascii digits ['\\', 't'] ['^', '<', '/', 's', '>', '$'] 3 ["word", "id", "head", "deprel"] ["word"] ["deprel"] "id" "head"

/-- Two sentences. -/
def sampleSents : List DSent :=
  [⟨["<s id=1>".toList], [⟨["girl".toList, "1".toList, "2".toList, "nsubj".toList], 1, 2⟩, ⟨["eats".toList, "2".toList, "0".toList, "ROOT".toList], 2, 0⟩]⟩,
   ⟨["<s id=2>".toList], [⟨["look".toList, "1".toList, "0".toList, "ROOT".toList], 1, 0⟩]⟩]

instance (s : Str) : Decidable (Trimmed s) := by
  unfold Trimmed
  exact match h : s.head?, h' : s.getLast? with
  | some a, some b => if h1 : isSpace a = false ∧ isSpace b = false then isTrue ⟨⟨a, rfl, h1.1⟩, ⟨b, rfl, h1.2⟩⟩
    else isFalse (by rintro ⟨⟨x, hx, h2⟩, y, hy, h3⟩; cases hx; cases hy; exact h1 ⟨h2, h3⟩)
  | none, _ => isFalse (by rintro ⟨⟨x, hx, _⟩, _⟩; cases hx)
  | some _, none => isFalse (by rintro ⟨_, ⟨x, hx, _⟩⟩; cases hx)

instance (s : Str) : Decidable (Fine s) := by unfold Fine; infer_instance

theorem sample_good : ∀ s ∈ sampleSents, s.Good digits ["word", "id", "head", "deprel"] "id" "head" ['<', '/', 's', '>'] := by
  intro s hs
  simp only [sampleSents, List.mem_cons, List.not_mem_nil, or_false] at hs
  rcases hs with rfl | rfl
  · refine ⟨?_, ?_, by simp, by decide +kernel⟩
    · intro l hl
      simp only [List.mem_cons, List.not_mem_nil, or_false] at hl
      subst hl
      exact ⟨by decide +kernel, by decide +kernel, by decide +kernel⟩
    · intro w hw
      simp only [List.mem_cons, List.not_mem_nil, or_false] at hw
      rcases hw with rfl | rfl <;>
        exact ⟨by decide +kernel, by decide +kernel, by decide +kernel, by decide +kernel, by decide +kernel, by decide +kernel⟩
  · refine ⟨?_, ?_, by simp, by decide +kernel⟩
    · intro l hl
      simp only [List.mem_cons, List.not_mem_nil, or_false] at hl
      subst hl
      exact ⟨by decide +kernel, by decide +kernel, by decide +kernel⟩
    · intro w hw
      simp only [List.mem_cons, List.not_mem_nil, or_false] at hw
      subst hw
      exact ⟨by decide +kernel, by decide +kernel, by decide +kernel, by decide +kernel, by decide +kernel, by decide +kernel⟩

example : DepSettings stanford ["deprel"] ∧ (∀ c ∈ ['<', '/', 's', '>'], Plain c) ∧ Fine ['<', '/', 's', '>'] ∧
    IsSep ['<', '/', 's', '>'] ['^', '<', '/', 's', '>', '$'] ∧
    textOf (sampleSents.flatMap (DSent.lines ['<', '/', 's', '>'])) =
      "<s id=1>\ngirl\t1\t2\tnsubj\neats\t2\t0\tROOT\n</s>\n<s id=2>\nlook\t1\t0\tROOT\n</s>\n".toList := by
  refine ⟨⟨by decide, rfl, by decide, by decide, ⟨"deprel", by decide, by decide, by decide⟩, by decide⟩, by decide, by decide +kernel, .inr rfl,
    by decide +kernel⟩

/-- **C187 is false**: a word with an empty column is no node of the graph, and nothing is reported; its head and its dependents are
read as if it were not there. -/
theorem C187_false : ∃ g : Graph,
    readSentence stanford (depLines "girl\t1\t2\tnsubj\neats\t2\t0\t\n</s>\n".toList) = [[(1, "girl\t1\t2\tnsubj")]] ∧
    sentenceGraph stanford [(1, "girl\t1\t2\tnsubj")] = .ok g ∧ Dict.get? g.nodes 2 = some [] ∧
    ∀ e ∈ Dict.keys g.edges, e.2 ≠ 2 := by
  exact ⟨_, by decide +kernel, rfl, by decide +kernel, by decide +kernel⟩

end Verif.Regex
