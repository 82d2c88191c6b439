import Verif.Regex.PropsDepText
import Verif.Dep.PropsRelation

/-!
# C194, C195: from the text of a dependency corpus to the matrix of `build_dependency`
-/

namespace Verif.Regex

open Verif.Py
open Verif.Vocab.Plain (Str isSpace isBreak)
open Verif.Dep (LineFormat Word WordLine DepSettings GoodSentence Relation1 CorpusFile Attrs readSentence linesOf depFound withFound matchMatrix
  relationCount IsTree fileId groupText groupStr headed HangsTogether Heads)
open Verif.Engine (DepCall)
open Verif.Matrix (entry Valid)

/-! ## Specification -/

/-- The words of a sentence that have their head in it, with their heads. -/
def DSent.pairs (s : DSent) : List (DWord × DWord) :=
  s.words.flatMap (fun w => (s.words.filter (fun h => h.id == w.head)).map (fun h => (h, w)))

/-- All words hang, directly or indirectly, from one number that is not the number of a word. -/
def DSent.Together (s : DSent) : Prop :=
  ∃ r, (∀ w ∈ s.words, w.id ≠ r) ∧ ∀ w ∈ s.words, Relation.ReflTransGen (fun u v => ∃ x ∈ s.words, u = x.head ∧ v = x.id) r w.id

/-- How many pairs of a sentence have the property; a sentence that does not hang together is left out. -/
noncomputable def DSent.number (Q : DWord × DWord → Bool) (s : DSent) : Nat :=
  open Classical in if s.Together then s.pairs.countP Q else 0

/-- The words of a sentence with `t` in column `col` and relation `r` in column `rel` whose head has `h` in column `col`. -/
noncomputable def DSent.related (columns : List String) (col rel r t h : String) (s : DSent) : Nat :=
  s.number (fun e => e.2.val columns col == t && e.2.val columns rel == r && e.1.val columns col == h)

/-- Those of all sentences of all files. -/
noncomputable def related (columns : List String) (col rel r t h : String) (src : List (List DSent)) : Nat :=
  (src.map (fun ss => (ss.map (DSent.related columns col rel r t h)).sum)).sum

/-- A template as the documentation has them: any head and any dependent, the relation `r`; the dependent is the target. -/
def plainRelation (col rel : String) (r : Str) : Relation1 where
  head := [(col, "(.+)")]
  dep := [(col, "(.+)")]
  rel := [(rel, String.ofList ('(' :: (r ++ [')', '$'])))]
  onDep := true
  target := [(col, 1)]
  node := [(col, 1)]
  edge := [(rel, 1)]
  connector := "/"

/-! ## Proofs -/

section
variable {u : Tables} {toInt : String → Option Nat} {tab close sep : Str} {columns nodeAttr : List String} {ea : List String}
  {currID headID : String}

theorem numbered_good (ht : IsTab tab) {n : Nat} (hc : columns.length = n + 1) (hd : columns.Nodup)
    {ss : List DSent} (h : ∀ s ∈ ss, s.Good toInt columns currID headID close) {k : Nat} {ws : List Word} (hw : ws ∈ numbered columns k ss) :
    GoodSentence (fmtOf u toInt tab sep n columns nodeAttr ea currID headID) ws := by
  obtain ⟨s, hsm, j, rfl⟩ := numbered_mem hw
  have hsg := h s hsm
  have hz : ∀ p ∈ s.words.zipIdx j, p.1 ∈ s.words := fun p hp => (List.mem_zipIdx hp).2.2 ▸ List.getElem_mem _
  refine ⟨?_, ?_, ?_⟩
  · intro e
    have := congrArg List.length e
    simp only [List.length_map, List.length_zipIdx, List.length_nil] at this
    exact hsg.nonempty (List.length_eq_zero_iff.1 this)
  · intro w hw
    obtain ⟨p, hpm, rfl⟩ := List.mem_map.1 hw
    exact wordLine_at ht hc hd (hsg.words p.1 (hz p hpm)) p.2
  · rw [List.map_map]
    have : (s.words.zipIdx j).map (Word.id ∘ fun p => p.1.at columns p.2) = s.words.map DWord.id := by
      have e : (Word.id ∘ fun p : DWord × Nat => p.1.at columns p.2) = DWord.id ∘ Prod.fst := rfl
      rw [e, ← List.map_map, List.zipIdx_map_fst]
    rw [this]
    exact hsg.ids

/-- **C194**, from the text: the same for files given by the text of their sentences; the words that are counted are those of the text,
with their line numbers. -/
theorem C194_text {rx : String → String → Bool} {grp : String → String → Nat → Option String} {tok : Bool}
    {istree : Verif.Dep.Graph → Bool} (hist : ∀ g, istree g = true ↔ IsTree g)
    (ht : IsTab tab) {n : Nat} (hn : 1 ≤ n) (hc : columns.length = n + 1)
    (S : DepSettings (fmtOf u toInt tab sep n columns nodeAttr ea currID headID) ea)
    (hp : ∀ c ∈ close, Plain c) (hf : Fine close) (hct : '\t' ∉ close) (hs : IsSep close sep)
    {files : List CorpusFile} {src : CorpusFile → List DSent} (hsrc : ∀ c ∈ files, c.lines = depLines (textOf ((src c).flatMap (DSent.lines close))))
    (h : ∀ c ∈ files, ∀ s ∈ src c, s.Good toInt columns currID headID close) (targets : List String) {ps : List Relation1}
    (hps : ∀ p ∈ ps, p.Good (fmtOf u toInt tab sep n columns nodeAttr ea currID headID) ea tok) {W : Nat} {acc : Nat → List Verif.Dep.Match}
    (hcall : DepCall (depFound rx istree (fmtOf u toInt tab sep n columns nodeAttr ea currID headID) tok targets (ps.map Relation1.macro)) W files
      (fun _ => []) acc) :
    ((∃ t c, relationCount rx grp targets tok (fun c => numbered columns 1 (src c)) files ps t c ≠ 0) →
      ∃ mtx, matchMatrix grp tok (withFound (ps.map Relation1.macro) acc) = .ok mtx ∧ Valid mtx ∧
        mtx.rows.Pairwise (· ≤ ·) ∧ mtx.cols.Pairwise (· ≤ ·) ∧
        (∀ t, t ∈ mtx.rows ↔ ∃ c, relationCount rx grp targets tok (fun c => numbered columns 1 (src c)) files ps t c ≠ 0) ∧
        (∀ c, c ∈ mtx.cols ↔ ∃ t, relationCount rx grp targets tok (fun c => numbered columns 1 (src c)) files ps t c ≠ 0) ∧
        ∀ t c, entry mtx t c = (relationCount rx grp targets tok (fun c => numbered columns 1 (src c)) files ps t c : Nat)) ∧
    ((∀ t c, relationCount rx grp targets tok (fun c => numbered columns 1 (src c)) files ps t c = 0) →
      matchMatrix grp tok (withFound (ps.map Relation1.macro) acc) = .error .valueError) := by
  refine Verif.Dep.C194_partial hist S ?_ ?_ targets hps hcall
  · intro c hcm
    rw [hsrc c hcm]
    exact (C187_partial ht hn hc S hp hf hct hs (h c hcm)).1
  · intro c hcm ws hws
    exact numbered_good ht hc S.distinct (h c hcm) hws

/-! ### C195 -/

theorem cell_val {w : DWord} (h : w.Good toInt columns currID headID close) {c : String} (hc : c ∈ columns) :
    (w.val columns c).toList ≠ [] ∧ '\n' ∉ (w.val columns c).toList := by
  have hi : columns.idxOf c < w.cols.length := by rw [h.len]; exact List.idxOf_lt_length_iff.2 hc
  unfold DWord.val
  rw [String.toList_ofList, List.getElem?_eq_getElem hi, Option.getD_some]
  obtain ⟨h1, _, h2⟩ := h.cell _ (List.getElem_mem hi)
  refine ⟨h1, fun hm => ?_⟩
  have := h2 _ hm
  revert this
  decide

theorem shown_all (v : String) (h1 : v.toList ≠ []) (h2 : '\n' ∉ v.toList) : rxS u "(.+)" v = true ∧ groupText (grpS u) "(.+)" v 1 = v := by
  have e : v.toList.takeWhile (· != '\n') = v.toList :=
    takeWhile_all (fun c hc => by simp only [bne_iff_ne]; exact fun he => h2 (he ▸ hc))
  have hl : lex .out "(.+)".toList = some [.open, .cls .any, .plus, .close] := by decide +kernel
  have hfun : Cls.has u .any = (· != '\n') := rfl
  have hm : reMatch u "(.+)".toList v.toList = some [some v.toList, some v.toList] := by
    rw [reMatch_class u hl, hfun, e, if_neg h1]
  constructor
  · unfold rxS; rw [hm]; rfl
  · unfold groupText grpS
    rw [hm]
    show String.ofList v.toList = v
    rw [String.ofList_toList]

theorem shown_rel {r : Str} (hr : ∀ c ∈ r, Plain c) (v : String) (h2 : '\n' ∉ v.toList) :
    rxS u (String.ofList ('(' :: (r ++ [')', '$']))) v = (v == String.ofList r) ∧
    (v = String.ofList r → groupText (grpS u) (String.ofList ('(' :: (r ++ [')', '$']))) v 1 = String.ofList r) := by
  have hx := reMatch_group_exact u hr v.toList
  have hne : v.toList ≠ r ++ ['\n'] := by
    intro e
    apply h2
    rw [e]
    simp
  by_cases he : v = String.ofList r
  · have hm : reMatch u ('(' :: (r ++ [')', '$'])) v.toList = some [some r, some r] := by
      rw [hx, if_pos (.inl (by rw [he, String.toList_ofList]))]
    constructor
    · unfold rxS; rw [String.toList_ofList, hm, he]; simp
    · intro _
      unfold groupText grpS
      rw [String.toList_ofList, hm]
      rfl
  · have hm : reMatch u ('(' :: (r ++ [')', '$'])) v.toList = none := by
      rw [hx, if_neg]
      rintro (e | e)
      · exact he (by rw [← e, String.ofList_toList])
      · exact hne e
    constructor
    · unfold rxS; rw [String.toList_ofList, hm]; simp [he]
    · exact fun h => absurd h he

/-- Pairs of the sentence and of its words with line numbers. -/
theorem count_pairs (s : DSent) (k : Nat) (Q : Word × Word → Bool) (Q' : DWord × DWord → Bool)
    (h : ∀ a ∈ s.words.zipIdx k, ∀ b ∈ s.words.zipIdx k, Q (a.1.at columns a.2, b.1.at columns b.2) = Q' (a.1, b.1)) :
    (headed ((s.words.zipIdx k).map (fun p => p.1.at columns p.2))).countP Q = s.pairs.countP Q' := by
  unfold headed DSent.pairs
  have hw : s.words = (s.words.zipIdx k).map Prod.fst := (List.zipIdx_map_fst k s.words).symm
  generalize s.words.zipIdx k = l at h hw
  rw [hw]
  simp only [List.countP_flatMap, List.map_map, List.filter_map]
  congr 1
  apply List.map_congr_left
  intro b hb
  simp only [Function.comp]
  rw [List.countP_map, List.countP_map, List.countP_filter, List.countP_filter]
  apply List.countP_congr
  intro a ha
  simp only [Function.comp]
  rw [h a ha b hb]
  exact Iff.rfl

theorem together_iff (s : DSent) (k : Nat) : HangsTogether ((s.words.zipIdx k).map (fun p => p.1.at columns p.2)) ↔ s.Together := by
  have hmem : ∀ (P : DWord → Prop), (∃ w ∈ s.words, P w) ↔ ∃ p ∈ s.words.zipIdx k, P p.1 := by
    intro P
    conv_lhs => rw [← List.zipIdx_map_fst k s.words]
    simp only [List.mem_map, exists_exists_and_eq_and]
  have hall : ∀ (P : DWord → Prop), (∀ w ∈ s.words, P w) ↔ ∀ p ∈ s.words.zipIdx k, P p.1 := by
    intro P
    conv_lhs => rw [← List.zipIdx_map_fst k s.words]
    exact List.forall_mem_map
  have hrel : Heads ((s.words.zipIdx k).map (fun p => p.1.at columns p.2)) = fun u v => ∃ x ∈ s.words, u = x.head ∧ v = x.id := by
    funext u v
    rw [eq_iff_iff, hmem (fun x => u = x.head ∧ v = x.id)]
    unfold Heads
    simp only [List.mem_map, exists_exists_and_eq_and]
    exact Iff.rfl
  unfold HangsTogether DSent.Together
  simp only [hrel]
  constructor
  · rintro ⟨r, h1, h2⟩
    refine ⟨r, (hall _).2 fun p hp => h1 _ (List.mem_map_of_mem hp), (hall _).2 fun p hp => h2 _ (List.mem_map_of_mem hp)⟩
  · rintro ⟨r, h1, h2⟩
    refine ⟨r, fun w hw => ?_, fun w hw => ?_⟩
    · obtain ⟨p, hp, rfl⟩ := List.mem_map.1 hw
      exact (hall (fun w => w.id ≠ r)).1 h1 p hp
    · obtain ⟨p, hp, rfl⟩ := List.mem_map.1 hw
      exact (hall (fun w => Relation.ReflTransGen _ r w.id)).1 h2 p hp

/-- The column of a head. -/
def relCol (r : Str) (h : String) : String := h ++ "->" ++ String.ofList r ++ ":#T#"

theorem relCol_inj {r : Str} {h h' : String} (e : relCol r h = relCol r h') : h = h' := by
  unfold relCol at e
  have := congrArg String.toList e
  simp only [String.toList_append, List.append_assoc, String.toList_ofList] at this
  exact String.toList_inj.1 (List.append_cancel_right this)

theorem column_one (grp : String → String → Nat → Option String) (c re : String) (w : Word) :
    Verif.Dep.column grp [(c, re)] w (c, 1) = groupText grp re (w.val c) 1 := by
  unfold Verif.Dep.column
  rw [show Dict.get? [(c, re)] c = some re from by simp [Dict.get?]]
  rfl

theorem relation_counts {col rel : String} {r : Str} (hr : ∀ c ∈ r, Plain c) (hcol : col ∈ columns ∧ Verif.Dep.isTokenAttr col = false) (hrel : rel ∈ columns) (targets : List String)
    {h w : DWord} (gh : h.Good toInt columns currID headID close) (gw : w.Good toInt columns currID headID close) (i j : Nat) (t c : String) (file : Option String) :
    ((plainRelation col rel r).counts (rxS u) targets (h.at columns i, w.at columns j) &&
      ((plainRelation col rel r).row (grpS u) file ((plainRelation col rel r).pick (h.at columns i, w.at columns j)) == t &&
       (plainRelation col rel r).col (grpS u) (h.at columns i, w.at columns j) == c)) =
    (w.val columns col == t && w.val columns rel == String.ofList r && (targets.contains t && relCol r (h.val columns col) == c)) := by
  obtain ⟨h1, h2⟩ := cell_val gh hcol.1
  obtain ⟨w1, w2⟩ := cell_val gw hcol.1
  obtain ⟨_, r2⟩ := cell_val gw hrel
  obtain ⟨a1, a2⟩ := shown_all (u := u) _ h1 h2
  obtain ⟨b1, b2⟩ := shown_all (u := u) _ w1 w2
  obtain ⟨c1, c2⟩ := shown_rel (u := u) hr _ r2
  have hk : (plainRelation col rel r).key (w.at columns j) = w.val columns col := by
    unfold Relation1.key
    show String.intercalate "/" ((List.filter (fun a => !Verif.Dep.isTokenAttr a) [col]).map (w.at columns j).val) = _
    rw [List.filter_cons, hcol.2]
    exact String.intercalate_singleton ..
  have hsing : ∀ (sep x : String), sep.intercalate [x] = x := fun sep x => String.intercalate_singleton ..
  have hrow : (plainRelation col rel r).row (grpS u) file (w.at columns j) = w.val columns col := by
    unfold Relation1.row
    show String.intercalate "/" (List.filterMap (fun e : String × Nat => if Verif.Dep.isTokenAttr e.1 then file.map (fun n => if e.1 = "lid" then toString (w.at columns j).lid else n)
      else some (Verif.Dep.column (grpS u) [(col, "(.+)")] (w.at columns j) e)) [(col, 1)]) = _
    have : (if Verif.Dep.isTokenAttr col then file.map (fun n => if col = "lid" then toString (w.at columns j).lid else n)
        else some (Verif.Dep.column (grpS u) [(col, "(.+)")] (w.at columns j) (col, 1))) = some (w.val columns col) := by
      rw [if_neg (by rw [hcol.2]; decide), column_one]
      exact congrArg some b2
    simp only [List.filterMap_cons, this, List.filterMap_nil]
    exact hsing _ _
  have hcolumn : w.val columns rel = String.ofList r → (plainRelation col rel r).col (grpS u) (h.at columns i, w.at columns j) = relCol r (h.val columns col) := by
    intro e
    show String.intercalate "/" [Verif.Dep.column (grpS u) [(col, "(.+)")] (h.at columns i) (col, 1)] ++ "->" ++
      String.intercalate "/" [Verif.Dep.column (grpS u) [(rel, String.ofList ('(' :: (r ++ [')', '$'])))] (w.at columns j) (rel, 1)] ++ ":#T#" = _
    rw [hsing, hsing, column_one, column_one]
    show groupText (grpS u) "(.+)" (h.val columns col) 1 ++ "->" ++ groupText (grpS u) _ (w.val columns rel) 1 ++ ":#T#" = _
    rw [a2, c2 e]
    rfl
  have hm : (plainRelation col rel r).counts (rxS u) targets (h.at columns i, w.at columns j) =
      (w.val columns rel == String.ofList r && targets.contains (w.val columns col)) := by
    show ((rxS u "(.+)" (h.val columns col) && true) && (rxS u "(.+)" (w.val columns col) && true) &&
      (rxS u (String.ofList ('(' :: (r ++ [')', '$']))) (w.val columns rel) && true) &&
      targets.contains ((plainRelation col rel r).key (w.at columns j))) = _
    rw [a1, b1, c1, hk]
    simp only [Bool.and_true, Bool.true_and]
  have hpick : (plainRelation col rel r).pick (h.at columns i, w.at columns j) = w.at columns j := rfl
  rw [hm, hpick, hrow]
  by_cases e : w.val columns rel = String.ofList r
  · rw [hcolumn e, Bool.eq_iff_iff]
    simp only [Bool.and_eq_true, beq_iff_eq]
    constructor
    · rintro ⟨⟨h0, h1⟩, rfl, h2⟩; exact ⟨⟨rfl, h0⟩, h1, h2⟩
    · rintro ⟨⟨rfl, h0⟩, h1, h2⟩; exact ⟨⟨h0, h1⟩, rfl, h2⟩
  · have e' : (w.val columns rel == String.ofList r) = false := by rw [beq_eq_false_iff_ne]; exact e
    rw [e', Bool.false_and, Bool.false_and, Bool.and_false, Bool.false_and]

/-- The counts of the template are those of the words of the text. -/
theorem relationCount_plain {col rel : String} {r : Str} (hr : ∀ c ∈ r, Plain c) (hcol : col ∈ columns ∧ Verif.Dep.isTokenAttr col = false) (hrel : rel ∈ columns)
    (targets : List String) {tok : Bool} {files : List CorpusFile} {src : CorpusFile → List DSent}
    (hg : ∀ c ∈ files, ∀ s ∈ src c, s.Good toInt columns currID headID close) (t c : String) :
    relationCount (rxS u) (grpS u) targets tok (fun c => numbered columns 1 (src c)) files [plainRelation col rel r] t c =
      (files.map (fun file => ((src file).map (DSent.number (fun e =>
        e.2.val columns col == t && e.2.val columns rel == String.ofList r && (targets.contains t && relCol r (e.1.val columns col) == c)))).sum)).sum := by
  classical
  unfold relationCount
  rw [List.map_singleton, List.sum_singleton]
  congr 1
  apply List.map_congr_left
  intro file hfile
  have hgood := hg file hfile
  beta_reduce
  generalize src file = ss at hgood ⊢
  generalize 1 = k
  induction ss generalizing k with
  | nil => rfl
  | cons s ss ih =>
    rw [numbered, List.map_cons, List.map_cons, List.sum_cons, List.sum_cons, ih (fun x hx => hgood x (List.mem_cons_of_mem _ hx))]
    congr 1
    unfold Relation1.inSentence DSent.number
    have hsg := hgood s (List.mem_cons_self ..)
    by_cases ht : s.Together
    · rw [if_pos ht, if_pos ((together_iff s _).2 ht)]
      apply count_pairs
      intro a ha b hb
      have hz : ∀ p ∈ s.words.zipIdx (k + s.before.length), p.1 ∈ s.words := fun p hp => (List.mem_zipIdx hp).2.2 ▸ List.getElem_mem _
      exact relation_counts hr hcol hrel targets (hsg.words _ (hz a ha)) (hsg.words _ (hz b hb)) a.2 b.2 t c _
    · rw [if_neg ht, if_neg (fun h => ht ((together_iff s _).1 h))]

theorem number_congr {Q Q' : DWord × DWord → Bool} (h : ∀ e, Q e = Q' e) : DSent.number Q = DSent.number Q' := by
  rw [show Q = Q' from funext h]

theorem number_false {Q : DWord × DWord → Bool} (h : ∀ e, Q e = false) (s : DSent) : s.number Q = 0 := by
  unfold DSent.number
  split
  · rw [List.countP_eq_zero]; intro e _; rw [h e]; decide
  · rfl

/-- The entries that can be other than zero. -/
theorem relationCount_col {col rel : String} {r : Str} (hr : ∀ c ∈ r, Plain c) (hcol : col ∈ columns ∧ Verif.Dep.isTokenAttr col = false) (hrel : rel ∈ columns)
    (targets : List String) {tok : Bool} {files : List CorpusFile} {src : CorpusFile → List DSent}
    (hg : ∀ c ∈ files, ∀ s ∈ src c, s.Good toInt columns currID headID close) (t : String) :
    (∀ h, relationCount (rxS u) (grpS u) targets tok (fun c => numbered columns 1 (src c)) files [plainRelation col rel r] t (relCol r h) =
      if t ∈ targets then related columns col rel (String.ofList r) t h (files.map src) else 0) ∧
    ∀ c, (∀ h, c ≠ relCol r h) → relationCount (rxS u) (grpS u) targets tok (fun c => numbered columns 1 (src c)) files [plainRelation col rel r] t c = 0 := by
  have hzero : ∀ Q : DWord × DWord → Bool, (∀ e, Q e = false) → (files.map (fun file => ((src file).map (DSent.number Q)).sum)).sum = 0 := by
    intro Q hQ
    have h1 : ∀ file, ((src file).map (DSent.number Q)).sum = 0 := by
      intro file
      apply List.sum_eq_zero
      intro n hn
      obtain ⟨s, _, rfl⟩ := List.mem_map.1 hn
      exact number_false hQ s
    apply List.sum_eq_zero
    intro n hn
    obtain ⟨file, _, rfl⟩ := List.mem_map.1 hn
    exact h1 file
  constructor
  · intro h
    rw [relationCount_plain hr hcol hrel targets hg]
    by_cases ht : t ∈ targets
    · rw [if_pos ht]
      unfold related DSent.related
      rw [List.map_map]
      congr 1
      apply List.map_congr_left
      intro file _
      simp only [Function.comp]
      rw [number_congr]
      intro e
      rw [Bool.eq_iff_iff]
      simp only [Bool.and_eq_true, beq_iff_eq, List.contains_iff_mem]
      constructor
      · rintro ⟨h1, _, h2⟩; exact ⟨h1, relCol_inj h2⟩
      · rintro ⟨h1, rfl⟩; exact ⟨h1, ht, rfl⟩
    · rw [if_neg ht]
      apply hzero
      intro e
      have : targets.contains t = false := by simpa using ht
      rw [this, Bool.false_and, Bool.and_false]
  · intro c hcn
    rw [relationCount_plain hr hcol hrel targets hg]
    apply hzero
    intro e
    have : (relCol r (e.1.val columns col) == c) = false := by
      rw [beq_eq_false_iff_ne]
      exact fun h => hcn _ h.symm
    rw [this, Bool.and_false, Bool.and_false]

theorem plainRelation_good {n : Nat} {col rel : String} {r : Str} (hcol : col ∈ columns ∧ Verif.Dep.isTokenAttr col = false) (hnode : col ∈ nodeAttr)
    (hrel : rel ∈ columns) (hedge : rel ∈ ea ∧ rel ∉ nodeAttr) :
    (plainRelation col rel r).Good (fmtOf u toInt tab sep n columns nodeAttr ea currID headID) ea false where
  asks := ⟨List.cons_ne_nil _ _, List.cons_ne_nil _ _, List.cons_ne_nil _ _⟩
  nodes := by
    intro a ha
    have ha : a ∈ [col, col] := ha
    simp only [List.mem_cons, List.not_mem_nil, or_false, or_self] at ha
    subst ha
    exact ⟨hcol.2, hcol.1, hnode⟩
  edges := by
    intro a ha
    have ha : a ∈ [rel] := ha
    rw [List.mem_singleton] at ha
    subst ha
    exact ⟨hrel, hedge⟩
  target := fun a ha _ => ha
  line := fun h => nomatch h
  node := fun a ha => ⟨ha, ha⟩
  edge := fun a ha => ha

/-- **C195.** `build_dependency` with the template of one relation `r` on the text of a corpus: for every number of workers and every schedule,
the entry for the target `t` and the column `h->r:#T#` is the number of words `t` of the text with relation `r` whose head is `h`, in
sentences that hang together; rows are the targets and columns the heads that occur so; with none, `ValueError`. -/
theorem C195_partial {istree : Verif.Dep.Graph → Bool} (hist : ∀ g, istree g = true ↔ IsTree g)
    (ht : IsTab tab) {n : Nat} (hn : 1 ≤ n) (hc : columns.length = n + 1)
    (S : DepSettings (fmtOf u toInt tab sep n columns nodeAttr ea currID headID) ea)
    (hp : ∀ c ∈ close, Plain c) (hf : Fine close) (hct : '\t' ∉ close) (hs : IsSep close sep)
    {files : List CorpusFile} {src : CorpusFile → List DSent} (hsrc : ∀ c ∈ files, c.lines = depLines (textOf ((src c).flatMap (DSent.lines close))))
    (hg : ∀ c ∈ files, ∀ s ∈ src c, s.Good toInt columns currID headID close) (targets : List String)
    {col rel : String} (hcol : col ∈ columns ∧ Verif.Dep.isTokenAttr col = false) (hnode : col ∈ nodeAttr)
    (hrel : rel ∈ columns) (hedge : rel ∈ ea ∧ rel ∉ nodeAttr) {r : Str} (hr : ∀ c ∈ r, Plain c) {W : Nat} {acc : Nat → List Verif.Dep.Match}
    (hcall : DepCall (depFound (rxS u) istree (fmtOf u toInt tab sep n columns nodeAttr ea currID headID) false targets
      [(plainRelation col rel r).macro]) W files (fun _ => []) acc) :
    ((∃ t ∈ targets, ∃ h, related columns col rel (String.ofList r) t h (files.map src) ≠ 0) →
      ∃ mtx, matchMatrix (grpS u) false (withFound [(plainRelation col rel r).macro] acc) = .ok mtx ∧ Valid mtx ∧
        mtx.rows.Pairwise (· ≤ ·) ∧ mtx.cols.Pairwise (· ≤ ·) ∧
        (∀ t, t ∈ mtx.rows ↔ t ∈ targets ∧ ∃ h, related columns col rel (String.ofList r) t h (files.map src) ≠ 0) ∧
        (∀ c, c ∈ mtx.cols ↔ ∃ h, c = h ++ "->" ++ String.ofList r ++ ":#T#" ∧
          ∃ t ∈ targets, related columns col rel (String.ofList r) t h (files.map src) ≠ 0) ∧
        ∀ t ∈ targets, ∀ h, entry mtx t (h ++ "->" ++ String.ofList r ++ ":#T#") =
          (related columns col rel (String.ofList r) t h (files.map src) : Nat)) ∧
    ((∀ t ∈ targets, ∀ h, related columns col rel (String.ofList r) t h (files.map src) = 0) →
      matchMatrix (grpS u) false (withFound [(plainRelation col rel r).macro] acc) = .error .valueError) := by
  have hgood : ∀ p ∈ [plainRelation col rel r], p.Good (fmtOf u toInt tab sep n columns nodeAttr ea currID headID) ea false := by
    intro p hpm
    rw [List.mem_singleton] at hpm
    subst hpm
    exact plainRelation_good hcol hnode hrel hedge
  obtain ⟨m1, m2⟩ := C194_text (rx := rxS u) (grp := grpS u) (tok := false) hist ht hn hc S hp hf hct hs hsrc hg targets (ps := [plainRelation col rel r]) hgood hcall
  have hcnt := fun t => relationCount_col (u := u) (tok := false) hr hcol hrel targets hg t
  have hiff : ∀ t c, relationCount (rxS u) (grpS u) targets false (fun c => numbered columns 1 (src c)) files [plainRelation col rel r] t c ≠ 0 ↔
      t ∈ targets ∧ ∃ h, c = relCol r h ∧ related columns col rel (String.ofList r) t h (files.map src) ≠ 0 := by
    intro t c
    constructor
    · intro hne
      have : ∃ h, c = relCol r h := by
        by_contra hno
        exact hne ((hcnt t).2 c (fun h e => hno ⟨h, e⟩))
      obtain ⟨h, rfl⟩ := this
      rw [(hcnt t).1] at hne
      by_cases htt : t ∈ targets
      · rw [if_pos htt] at hne
        exact ⟨htt, h, rfl, hne⟩
      · rw [if_neg htt] at hne
        exact absurd rfl hne
    · rintro ⟨htt, h, rfl, hne⟩
      rw [(hcnt t).1, if_pos htt]
      exact hne
  constructor
  · rintro ⟨t, htt, h, hne⟩
    obtain ⟨mtx, h1, h2, h3, h4, h5, h6, h7⟩ := m1 ⟨t, relCol r h, (hiff _ _).2 ⟨htt, h, rfl, hne⟩⟩
    refine ⟨mtx, h1, h2, h3, h4, fun t => ?_, fun c => ?_, fun t htt h => ?_⟩
    · rw [h5]
      simp only [hiff]
      constructor
      · rintro ⟨_, htt, h, _, hne⟩; exact ⟨htt, h, hne⟩
      · rintro ⟨htt, h, hne⟩; exact ⟨_, htt, h, rfl, hne⟩
    · rw [h6]
      simp only [hiff]
      constructor
      · rintro ⟨t, htt, h, e, hne⟩; exact ⟨h, e, t, htt, hne⟩
      · rintro ⟨h, e, t, htt, hne⟩; exact ⟨t, htt, h, e, hne⟩
    · show entry mtx t (relCol r h) = _
      rw [h7, (hcnt t).1, if_pos htt]
  · intro hz
    apply m2
    intro t c
    by_contra hne
    obtain ⟨htt, h, _, hne⟩ := (hiff t c).1 hne
    exact hne (hz t htt h)

end

/-! ### The sample corpus -/

/-- The file with the two sentences of the sample. -/
def sampleText (ss : List DSent) : CorpusFile := ⟨"corpus", depLines (textOf (ss.flatMap (DSent.lines ['<', '/', 's', '>'])))⟩

/-- One worker processes one file. -/
theorem one_call {J ι Mt : Type} (found : J → ι → List Mt) (file : J) : ∃ acc, DepCall found 1 [file] (fun _ => []) acc := by
  refine ⟨_, [.produce, .take 0, .work 0, .produce, .take 0, .work 0], ⟨[], [], [.done ()], [_]⟩, [_], by intro i; simp, rfl, ⟨rfl, ?_⟩, rfl, rfl⟩
  intro w hw
  simp at hw
  exact Or.inl ⟨(), hw⟩

theorem sample_together : ∀ s ∈ sampleSents, s.Together := by
  intro s hs
  simp only [sampleSents, List.mem_cons, List.not_mem_nil, or_false] at hs
  rcases hs with rfl | rfl
  · refine ⟨0, by decide, fun w hw => ?_⟩
    simp only [List.mem_cons, List.not_mem_nil, or_false] at hw
    have h2 : Relation.ReflTransGen (fun u v => ∃ x ∈ [(⟨["girl".toList, "1".toList, "2".toList, "nsubj".toList], 1, 2⟩ : DWord),
        ⟨["eats".toList, "2".toList, "0".toList, "ROOT".toList], 2, 0⟩], u = x.head ∧ v = x.id) 0 2 :=
      .single ⟨_, List.mem_cons_of_mem _ (List.mem_cons_self ..), rfl, rfl⟩
    rcases hw with rfl | rfl
    · exact h2.tail ⟨_, List.mem_cons_self .., rfl, rfl⟩
    · exact h2
  · refine ⟨0, by decide, fun w hw => ?_⟩
    simp only [List.mem_cons, List.not_mem_nil, or_false] at hw
    subst hw
    exact .single ⟨_, List.mem_cons_self .., rfl, rfl⟩

theorem sample_related : related ["word", "id", "head", "deprel"] "word" "deprel" "nsubj" "girl" "eats" [sampleSents] = 1 := by
  have h : sampleSents.map (DSent.related ["word", "id", "head", "deprel"] "word" "deprel" "nsubj" "girl" "eats") = [1, 0] := by
    have : ∀ s ∈ sampleSents, DSent.related ["word", "id", "head", "deprel"] "word" "deprel" "nsubj" "girl" "eats" s =
        s.pairs.countP (fun e => e.2.val ["word", "id", "head", "deprel"] "word" == "girl" && e.2.val ["word", "id", "head", "deprel"] "deprel" == "nsubj"
          && e.1.val ["word", "id", "head", "deprel"] "word" == "eats") := by
      intro s hs
      unfold DSent.related DSent.number
      exact if_pos (sample_together s hs)
    rw [List.map_congr_left this]
    decide +kernel
  unfold related
  rw [List.map_singleton, h]
  rfl

theorem stanford_settings : DepSettings stanford ["deprel"] :=
  ⟨by decide, rfl, by decide, by decide, ⟨"deprel", by decide, by decide, by decide⟩, by decide⟩

/-- C195 on the sample corpus: with the target `girl` and the relation `nsubj` the matrix has the entry 1 for `eats->nsubj:#T#`. -/
example : ∃ (istree : Verif.Dep.Graph → Bool) (acc : Nat → List Verif.Dep.Match) (mtx : _),
    (∀ g, istree g = true ↔ IsTree g) ∧
    DepCall (depFound (rxS ascii) istree stanford false ["girl"] [(plainRelation "word" "deprel" "nsubj".toList).macro]) 1 [sampleText sampleSents] (fun _ => []) acc ∧
    matchMatrix (grpS ascii) false (withFound [(plainRelation "word" "deprel" "nsubj".toList).macro] acc) = .ok mtx ∧
    entry mtx "girl" "eats->nsubj:#T#" = 1 := by
  classical
  obtain ⟨acc, hacc⟩ := one_call (depFound (rxS ascii) (fun g => decide (IsTree g)) stanford false ["girl"]
    [(plainRelation "word" "deprel" "nsubj".toList).macro]) (sampleText sampleSents)
  obtain ⟨m1, _⟩ := C195_partial (u := ascii) (istree := fun g => decide (IsTree g)) (fun g => decide_eq_true_iff) (tab := ['\\', 't']) (.inr rfl) (n := 3) (by decide) rfl
    stanford_settings (close := ['<', '/', 's', '>']) (by decide) (by decide +kernel) (by decide) (.inr rfl)
    (files := [sampleText sampleSents]) (src := fun _ => sampleSents) (by intro c h; rcases List.mem_singleton.1 h with rfl; rfl)
    (fun _ _ => sample_good) ["girl"] (col := "word") (rel := "deprel") ⟨by decide, by decide⟩ (by decide) (by decide) ⟨by decide, by decide⟩
    (r := "nsubj".toList) (by decide +kernel) hacc
  have e : String.ofList "nsubj".toList = "nsubj" := by decide
  rw [e] at m1
  have hr := sample_related
  obtain ⟨mtx, h1, _, _, _, _, _, h7⟩ := m1 ⟨"girl", by decide, "eats", by
    show related _ _ _ _ _ _ [sampleSents] ≠ 0
    rw [hr]; decide⟩
  refine ⟨_, acc, mtx, fun g => decide_eq_true_iff, hacc, h1, ?_⟩
  have := h7 "girl" (by decide) "eats"
  rw [show ("eats" ++ "->" ++ "nsubj" ++ ":#T#" : String) = "eats->nsubj:#T#" by decide] at this
  rw [this]
  show ((related _ _ _ _ _ _ [sampleSents] : Nat) : Int) = 1
  rw [hr]
  rfl

/-- A sentence in which two words are each other's heads. -/
def cycleSents : List DSent :=
  [⟨[], [⟨["girl".toList, "1".toList, "2".toList, "nsubj".toList], 1, 2⟩, ⟨["eats".toList, "2".toList, "1".toList, "ROOT".toList], 2, 1⟩]⟩]

theorem cycle_good : ∀ s ∈ cycleSents, s.Good digits ["word", "id", "head", "deprel"] "id" "head" ['<', '/', 's', '>'] := by
  intro s hs
  simp only [cycleSents, List.mem_cons, List.not_mem_nil, or_false] at hs
  subst hs
  refine ⟨by simp, ?_, by simp, by decide +kernel⟩
  intro w hw
  simp only [List.mem_cons, List.not_mem_nil, or_false] at hw
  rcases hw with rfl | rfl <;>
    exact ⟨by decide +kernel, by decide +kernel, by decide +kernel, by decide +kernel, by decide +kernel, by decide +kernel⟩

theorem cycle_apart : ∀ s ∈ cycleSents, ¬ s.Together := by
  intro s hs
  simp only [cycleSents, List.mem_cons, List.not_mem_nil, or_false] at hs
  subst hs
  rintro ⟨r, h1, h2⟩
  have h3 := h2 _ (List.mem_cons_self ..)
  rcases Relation.ReflTransGen.cases_head h3 with h4 | ⟨c, ⟨x, hx, rfl, _⟩, _⟩
  · exact h1 _ (List.mem_cons_self ..) h4.symm
  · simp only [List.mem_cons, List.not_mem_nil, or_false] at hx
    rcases hx with rfl | rfl
    · exact h1 _ (List.mem_cons_of_mem _ (List.mem_cons_self ..)) rfl
    · exact h1 _ (List.mem_cons_self ..) rfl

/-- **C195 is false without the condition on sentences**: in the text below `girl` is the `nsubj` of `eats`, but a sentence that does not
hang together is passed over without a message, and as nothing else is found, `build_dependency` raises `ValueError`. -/
theorem C195_false : textOf (cycleSents.flatMap (DSent.lines ['<', '/', 's', '>'])) = "girl\t1\t2\tnsubj\neats\t2\t1\tROOT\n</s>\n".toList ∧
    (∃ s ∈ cycleSents, ∃ e ∈ s.pairs, e.2.val ["word", "id", "head", "deprel"] "word" = "girl" ∧
      e.2.val ["word", "id", "head", "deprel"] "deprel" = "nsubj" ∧ e.1.val ["word", "id", "head", "deprel"] "word" = "eats") ∧
    ∀ istree : Verif.Dep.Graph → Bool, (∀ g, istree g = true ↔ IsTree g) → ∀ (W : Nat) (acc : Nat → List Verif.Dep.Match),
      DepCall (depFound (rxS ascii) istree stanford false ["girl"] [(plainRelation "word" "deprel" "nsubj".toList).macro]) W [sampleText cycleSents] (fun _ => []) acc →
      matchMatrix (grpS ascii) false (withFound [(plainRelation "word" "deprel" "nsubj".toList).macro] acc) = .error .valueError := by
  refine ⟨by decide +kernel, ⟨_, List.mem_cons_self .., _, List.mem_cons_self .., by decide +kernel, by decide +kernel, by decide +kernel⟩, ?_⟩
  intro istree hist W acc hacc
  refine (C195_partial (u := ascii) hist (tab := ['\\', 't']) (.inr rfl) (n := 3) (by decide) rfl
    stanford_settings (close := ['<', '/', 's', '>']) (by decide) (by decide +kernel) (by decide) (.inr rfl)
    (files := [sampleText cycleSents]) (src := fun _ => cycleSents) (by intro c h; rcases List.mem_singleton.1 h with rfl; rfl)
    (fun _ _ => cycle_good) ["girl"] (col := "word") (rel := "deprel") ⟨by decide, by decide⟩ (by decide) (by decide) ⟨by decide, by decide⟩
    (r := "nsubj".toList) (by decide +kernel) hacc).2 ?_
  intro t _ h
  unfold related
  apply List.sum_eq_zero
  intro k hk
  rw [List.map_singleton, List.map_singleton, List.mem_singleton] at hk
  rw [hk]
  apply List.sum_eq_zero
  intro k hk
  obtain ⟨s, hs, rfl⟩ := List.mem_map.1 hk
  unfold DSent.related DSent.number
  exact if_neg (cycle_apart s hs)

end Verif.Regex
