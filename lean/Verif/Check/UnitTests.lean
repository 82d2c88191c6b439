import Verif.Check.Formulas
import Verif.Cbc.Step1
import Verif.Cbc.Clean
import Verif.Cbc.Condensed
import Verif.Items.Nodes
import Verif.Matrix.Query
import Mathlib.Data.Rat.Floor

/-!
# The model against the unit tests of the code

What the tests in `/repo/nephosem/tests` assert, evaluated in the model.  Like the other checks these are tests of the model, not proofs.
Tests that need libraries which the model takes as parameters (linkage of clusters, random samples) are left out, and
`test_mxutils.py`, whose tests end with `assert False`.
-/

namespace Verif.Check
open Verif.Py Verif.Vocab Verif.Matrix Verif.Regex
open Verif.Vocab.Plain (Str)
open Verif.Items (Settings Formatter)

/-! ### test_vocab.py -/

/-- The fixture. -/
def testVocab : Vocab Str := Verif.Vocab.mk' ([("Abc/NP0", 3), ("acbed/NN0", 2), ("bcd/NN0", 2), ("bcd/NN2", 1), ("cdef/VVB", 4), ("cdef/VVN", 4)].map
  (fun e => (e.1.toList, e.2)))

-- test_operators
#guard Verif.Vocab.compare testVocab .gt 3 = strs ["cdef/VVB", "cdef/VVN"]
#guard Py.sortedBy id (Verif.Vocab.compare testVocab .lt 3) = strs ["acbed/NN0", "bcd/NN0", "bcd/NN2"]
#guard Verif.Vocab.compare testVocab .ge 3 = strs ["Abc/NP0", "cdef/VVB", "cdef/VVN"]
#guard Verif.Vocab.compare testVocab .le 3 = strs ["Abc/NP0", "acbed/NN0", "bcd/NN0", "bcd/NN2"]
-- test_getitem
#guard val (Verif.Vocab.getStr testVocab "Abc/NP0".toList).1 = some 3
#guard (Verif.Vocab.select1 testVocab (.items (strs ["bcd/NN0", "bcd/NN2"]))).freq.keys = strs ["bcd/NN0", "bcd/NN2"]
#guard Py.sortedBy id (Verif.Vocab.select1 testVocab (.freqs [2, 3])).freq.values.dedup = [2, 3]
#guard (Verif.Vocab.selectTuple testVocab [.items (Verif.Vocab.compare testVocab .ge 2), .items (Verif.Vocab.compare testVocab .lt 4)]).freq.keys =
  strs ["Abc/NP0", "acbed/NN0", "bcd/NN0"]
-- test_increment
#guard ([1, 2, -1, -2].foldl (fun (st : Vocab Str × List (Option Int)) n =>
    let v := Verif.Vocab.increment st.1 "bcd/NN2".toList n
    (v, st.2 ++ [val (Verif.Vocab.getStr v "bcd/NN2".toList).1])) (testVocab, [])).2 = [some 2, some 4, some 3, some 1]
-- test_get_item_list
#guard val (Verif.Vocab.getItemList testVocab .alpha false) = some (strs ["Abc/NP0", "acbed/NN0", "bcd/NN0", "bcd/NN2", "cdef/VVB", "cdef/VVN"])
#guard val (Verif.Vocab.getItemList testVocab .alpha true) = some (strs ["cdef/VVN", "cdef/VVB", "bcd/NN2", "bcd/NN0", "acbed/NN0", "Abc/NP0"])
#guard val (Verif.Vocab.getItemList testVocab .freq true) = some (strs ["cdef/VVB", "cdef/VVN", "Abc/NP0", "acbed/NN0", "bcd/NN0", "bcd/NN2"])
#guard val (Verif.Vocab.getItemList testVocab .freq false) = some (strs ["bcd/NN2", "acbed/NN0", "bcd/NN0", "Abc/NP0", "cdef/VVB", "cdef/VVN"])
-- test_subvocab, test_match, test_sum
#guard Verif.Vocab.len (Verif.Vocab.subvocab testVocab (strs ["bcd/NN0", "bcd/NN2"])) = 2
#guard val (vocabMatch ascii "bcd".toList "item".toList testVocab) = some (strs ["bcd/NN0", "bcd/NN2"])
#guard Verif.Vocab.sumFreq testVocab = 16
-- test_equal
#guard Verif.Vocab.equal testVocab (Verif.Vocab.deepcopy testVocab)
#guard !Verif.Vocab.equal testVocab (Verif.Vocab.setItem testVocab "acbed/NN0".toList 10)

/-! ### test_matrix.py -/

/-- The sparse fixture: one zero is stored. -/
def spBody : Sp Int :=
  { fmt := .csr, nr := 3, nc := 4, data := [((0, 0), -5), ((0, 2), -3), ((0, 3), -2), ((1, 0), -1), ((1, 3), 0), ((2, 0), 2), ((2, 2), 4), ((2, 3), 5)] }
/-- The names of the rows. -/
def testRows : List String := ["row0", "row1", "row2"]
/-- The names of the columns. -/
def testCols : List String := ["col0", "col1", "col2", "col3"]
/-- The sparse matrix. -/
def spM : Option (Mtx String Int) := val (mkMtx (.sp spBody) testRows testCols)
/-- The dense matrix. -/
def nmM : Option (Mtx String Int) :=
  val (mkMtx (.dn { nr := 3, nc := 4, elem := fun i j => ((([[-5, -4, -3, -2], [-1, 0, 0, 1], [2, 3, 4, 5]] : List (List Int)).getD i []).getD j 0) }) testRows testCols)

-- test_operators: stored elements of `m.multiply(m > n)` and so on
#guard [(Op.gt, 2), (.ge, 2), (.lt, 2), (.le, 2), (.gt, -1), (.ge, -1), (.lt, -1), (.le, -1), (.gt, 0), (.lt, 0)].map
    (fun (e : Op × Int) => (spM.bind fun m => val (threshold m e.1 e.2)).bind stored) =
  [2, 3, 5, 6, 4, 5, 3, 4, 3, 4].map some
-- test_reorder
#guard ([spM, nmM].map fun m => (m.bind fun m => val (reorderRows m ["row1", "row2", "row0"])).map Mtx.rows) =
  [some ["row1", "row2", "row0"], some ["row1", "row2", "row0"]]
#guard ([spM, nmM].map fun m => (m.bind fun m => val (reorderCols m ["col2", "col0", "col3", "col1"])).map Mtx.cols) =
  [some ["col2", "col0", "col3", "col1"], some ["col2", "col0", "col3", "col1"]]
-- test_equal
#guard [spM, nmM].all fun m => (m.bind fun m => val (Verif.Matrix.equal m m)) = some true
#guard (do val (Verif.Matrix.equal (← spM) (← val (mkMtx (.sp { spBody with data := spBody.data.map (fun e => if e.1 = (1, 3) then (e.1, -3) else e) }) testRows testCols)))) =
  some false
-- test_submatrix
#guard (do
    let m ← spM
    let s ← ok (submatrix m (some ["row0", "row1"]) (some ["col1", "col2"]))
    let t ← val (mkMtx (.sp { fmt := .csr, nr := 2, nc := 2, data := [((0, 1), -3)] }) ["row0", "row1"] ["col1", "col2"])
    val (Verif.Matrix.equal s t)) = some true
-- test_concatenate
#guard (do
    let m ← spM
    let t ← val (mkMtx (.sp spBody) ["row3", "row4", "row5"] testCols)
    let c ← val (concatRows m t)
    pure (c.rows, c.cols)) = some (testRows ++ ["row3", "row4", "row5"], testCols)
#guard (do
    let m ← spM
    let t ← val (mkMtx (.sp spBody) testRows ["col4", "col5", "col6", "col7"])
    let c ← val (concatCols m t)
    pure (c.rows, c.cols)) = some (testRows, testCols ++ ["col4", "col5", "col6", "col7"])
-- test_most_similar, with a selection that sorts
#guard (do
    let m ← val (mkMtx (.dn { nr := 4, nc := 4, elem := fun i j => ((([[0, 1, 2, 3], [1, 0, 4, 5], [2, 4, 0, 6], [3, 5, 6, 0]] : List (List Int)).getD i []).getD j 0) })
      testCols testCols)
    val (mostSimilar (fun l _ => Py.sortedBy (fun i => l.getD i 0) (List.range l.length)) m "col1" 2 false)) = some ["col0", "col2"]

/-! ### test_settings.py and test_terms.py -/

/-- Settings over those of `/repo/nephosem/config.ini:13-25`. -/
def over (s : List (String × String)) : Settings :=
  (s ++ [("separator-line-machine", "</arti(kel|cle)>")]).foldl (fun d e => Dict.set d e.1 e.2.toList)
    ([("line-machine", "([^\t]+)\t([^\t]+)\t([^\t]+)"), ("line-format", "word,pos,lemma"), ("type", "lemma/pos"), ("colloc", "lemma/pos"),
      ("token", "word/pos/fid/lid"), ("boundary-detection-mechanism", "single"), ("separator-line-machine", "</artikel>"),
      ("single-boundary-machine", "</artikel>")].map (fun e => (e.1, e.2.toList)))

/-- Type, collocate and token of a line. -/
def formats (s : List (String × String)) (line : String) : Option (String × String × String) := do
  let (_, f) ← val (Verif.Items.construct (over s))
  let m ← (← val (Verif.Items.matchLine (reMatch ascii) f line.toList))
  pure (String.ofList (← val (Verif.Items.getType f m)), String.ofList (← val (Verif.Items.getColloc f m)),
    String.ofList (← val (Verif.Items.getToken f m "file1".toList "11".toList)))

#guard formats [("line-machine", "([^\t]+)\t([^\t]+)"), ("line-format", "word,lemma"), ("type", "lemma"), ("colloc", "lemma"), ("token", "word/fid/lid")]
  "Cat\tcat" = some ("cat", "cat", "Cat/file1/11")
#guard formats [("line-machine", "([^\t]+)\t([^\t]+)"), ("line-format", "word,lemma"), ("type", "lemma"), ("colloc", "word"), ("token", "lemma/fid/lid")]
  "Cat\tcat" = some ("cat", "Cat", "cat/file1/11")
#guard formats [("line-format", "word,lemma,pos"), ("token", "lemma/pos/fid/lid")] "Cat\tcat\tnoun" = some ("cat/noun", "cat/noun", "cat/noun/file1/11")
#guard formats [("line-format", "word,lemma,pos"), ("type", "word"), ("token", "word/fid/lid")] "Cat\tcat\tnoun" = some ("Cat", "cat/noun", "Cat/file1/11")
#guard formats [] "Cat\tnoun\tcat" = some ("cat/noun", "cat/noun", "Cat/noun/file1/11")
/-- The line machine of cases 3 and 4. -/
def eight : String := "([^\t]+)\t([^\t]+)\t([^\t]+)\t([^\t]+)\t([^\t]+)\t([^\t]+)\t_\t_"
#guard formats [("line-machine", eight), ("line-format", "word,lemma,pos,head,rel,tail,null1,null2")] "De\tde\tdet\t3\tdet\t5\t_\t_" =
  some ("de/det", "de/det", "De/det/file1/11")
#guard formats [("line-machine", eight), ("line-format", "word,lemma,pos")] "De\tde\tdet\t3\tdet\t5\t_\t_" = some ("de/det", "de/det", "De/det/file1/11")
#guard formats [("line-machine", eight), ("line-format", "head,word,lemma,pos,rel,tail,null1,null2")] "3\tDe\tde\tdet\tdet\t5\t_\t_" =
  some ("de/det", "de/det", "De/det/file1/11")
#guard formats [("line-machine", "[^\t\n]+\t([^\t]+)\t([^\t]+)\t([^\t]+)\t[^\t]+\t[^\t]+\t_\t_"), ("line-format", "word,lemma,pos")]
  "1\tHerbundeling\ther_bundeling\tnoun\t0\tROOT\t_\t_" = some ("her_bundeling/noun", "her_bundeling/noun", "Herbundeling/noun/file1/11")

/-- A match of the example line of test_terms.py. -/
def isMatch : Option (Verif.Items.Match × Formatter) := do
  let (_, f) ← val (Verif.Items.construct (over []))
  pure ((← (← val (Verif.Items.matchLine (reMatch ascii) f "is\tVVB\tbe".toList))), f)
/-- A string, if there is one. -/
def str? (s : String) : Option Str := some s.toList

-- TestItemNode
#guard (do
    let (m, f) ← isMatch
    let a ← val (Verif.Items.itemOfMatch m f)
    pure (a.get? "word".toList, a.get? "lemma".toList, a.get? "pos".toList, val (Verif.Items.toType a none), val (Verif.Items.toColloc a none))) =
  some (some (str? "is"), some (str? "be"), some (str? "VVB"), str? "be/VVB", str? "be/VVB")
#guard (let a := Verif.Items.itemOfWords (Verif.Items.wordsOf (str? "is") (str? "be") (str? "VVB")) none none
    (val (Verif.Items.toType a (str? "lemma/pos")), val (Verif.Items.toColloc a (str? "word/pos")))) = (str? "be/VVB", str? "is/VVB")
-- TestTypeNode
#guard (do val (Verif.Items.TypeN.type (← val (Verif.Items.typeNew (some (← isMatch)) none none none none none [])))) = str? "be/VVB"
#guard (do
    let t ← val (Verif.Items.typeNew none (str? "lemma/pos") (str? "be/VVB") none none none [])
    pure (t.attrs.get? "lemma".toList, t.attrs.get? "pos".toList, val t.type)) = some (some (str? "be"), some (str? "VVB"), str? "be/VVB")
#guard (do val (Verif.Items.TypeN.type (← val (Verif.Items.typeNew none (str? "lemma/pos") none none (str? "be") (str? "VVB") [])))) = str? "be/VVB"
-- TestTokenNode
#guard (do val (Verif.Items.TokenN.token (← val (Verif.Items.tokenNew none none (some (← isMatch)) "unknown".toList "-1".toList none none none none none)))) =
  str? "is/VVB/unknown/-1"
#guard (do
    let t ← val (Verif.Items.tokenNew (str? "is/VVB/fname/1") (str? "word/pos/fid/lid") none "unknown".toList "-1".toList none none none none none)
    pure (t.attrs.get? "word".toList, t.attrs.get? "pos".toList, val t.token)) = some (some (str? "is"), some (str? "VVB"), str? "is/VVB/fname/1")
#guard (do val (Verif.Items.TokenN.token
    (← val (Verif.Items.tokenNew none (str? "word/pos/fid/lid") none "unknown".toList "-1".toList (str? "is") (str? "VVB") none none none)))) = str? "is/VVB/unknown/-1"

/-! ### test_typetoken.py -/

/-- The formatter of its settings. -/
def fullFmt : Option Formatter :=
  (val (Verif.Items.construct (over [("line-machine", "([^\t]+)\t([^\t]+)\t([^\t]+)\t([^\t]+)\t([^\t]+)\t([^\t]+)"),
    ("line-format", "word,pos,lemma,tail,head,rel")]))).map Prod.snd
/-- The frequency list of the corpus. -/
def fullVocab : Option (Vocab Str) :=
  fullFmt.bind fun f =>
    let p := Verif.Engine.perJob (Verif.Corpus.itemFreqFile (asFormatter (reMatch ascii) f))
    (Verif.Engine.readN strFiles.length (drive p 3 100 (Verif.Engine.start p 3 (strFiles.map Prod.snd)))).map Verif.Corpus.mergeFreqs
/-- `freq_dict`, sorted by its items.  No test uses it; its entry "apples/NNP" is older than the corpus, whose lines have the lemma "apple". -/
def freqDict : List (String × Int) := [
   ("'s/POS", 1), (",/,", 3), ("a/DT", 6), ("about/IN", 1), ("about/RB", 1), ("all/PDT", 1), ("an/DT", 3), ("and/CC", 5), ("apple/NN", 14),
   ("apple/NNS", 5), ("apples/NNP", 2), ("as/IN", 1), ("ask/VBD", 1), ("at/IN", 6), ("baby/NN", 2), ("be/VBD", 2), ("be/VBN", 1), ("be/VBP", 4),
   ("be/VBZ", 4), ("both/DT", 1), ("boy/NN", 22), ("boy/NNS", 3), ("by/IN", 3), ("do/VBZ", 1), ("down/RP", 1), ("during/IN", 1), ("eat/VB", 7),
   ("eat/VBG", 1), ("eat/VBN", 4), ("eat/VBZ", 10), ("food/NN", 4), ("for/IN", 1), ("girl/NN", 19), ("girl/NNS", 2), ("give/VBD", 1), ("give/VBN", 3),
   ("give/VBZ", 2), ("have/VBZ", 2), ("healthy/JJ", 10), ("her/PRP", 1), ("him/PRP", 1), ("house/NN", 1), ("in/IN", 1), ("less/RBR", 1), ("like/VBZ",
   1), ("look/VBD", 2), ("look/VBG", 1), ("look/VBZ", 5), ("love/VBZ", 1), ("not/RB", 2), ("old/JJ", 3), ("old/JJR", 1), ("on/IN", 1), ("say/VBZ", 1),
   ("she/PRP", 2), ("should/MD", 2), ("sit/VBD", 1), ("sit/VBZ", 2), ("tasty/JJ", 5), ("ten/CD", 1), ("ten/JJ", 1), ("that/IN", 1), ("that/WDT", 1),
   ("the/DT", 53), ("this/DT", 1), ("to/TO", 2), ("very/RB", 1), ("what/WP", 2), ("which/WDT", 1), ("without/IN", 1), ("year/NN", 2), ("year/NNS", 1)]
#guard (fullVocab.map fun v => items (Py.sortedBy Prod.fst v.freq)) =
  some (Py.sortedBy Prod.fst (freqDict.map fun e => if e.1 = "apples/NNP" then ("apple/NNP", e.2) else e))

/-! ### test_mxcalc.py -/

/-- `Verif.Assoc.calcLik` with `Verif.Assoc.cellTable`. -/
def lik (x r c n : Float) : Float :=
  let o11 := x
  let o12 := r - o11
  let o21 := c - o11
  let o22 := n - o12 - o21 - o11
  let p1 := adjust (o11 / (o11 + o21))
  let p2 := adjust (o12 / (o12 + o22))
  let p := adjust ((o11 + o12) / (o11 + o12 + o21 + o22))
  2 * (o11 * Float.log p1 + o21 * Float.log (1 - p1) + o12 * Float.log p2 + o22 * Float.log (1 - p2)
    - o11 * Float.log p - o21 * Float.log (1 - p) - o12 * Float.log p - o22 * Float.log (1 - p))

/-- `/repo/nephosem/tests/data/toy.values.csv`: frequencies of the pair, the node, the collocate, all; PMI, PPMI, log-likelihood. -/
def toyValues : List (Float × Float × Float × Float × Float × Float × Float) := [
  (1, 15, 6, 354, 1.3694872428035094, 1.3694872428035094, 1.3887637699340694),
  (1, 15, 6, 354, 1.3694872428035094, 1.3694872428035094, 1.3887637699340694),
  (1, 15, 25, 354, -0.057629112836636416, 0.0, 0.0037959607534894246),
  (1, 15, 25, 354, -0.057629112836636416, 0.0, 0.0037959607534894246),
  (1, 15, 7, 354, 1.2153365629762511, 1.2153365629762511, 1.136113478745532),
  (1, 15, 10, 354, 0.8586616190375188, 0.8586616190375188, 0.6242730941480978),
  (1, 15, 25, 354, -0.057629112836636416, 0.0, 0.0037959607534894246),
  (1, 15, 25, 354, -0.057629112836636416, 0.0, 0.0037959607534894246),
  (1, 15, 4, 354, 1.7749523509116738, 1.7749523509116738, 2.133051090829177),
  (1, 15, 10, 354, 0.8586616190375188, 0.8586616190375188, 0.6242730941480978),
  (1, 15, 10, 354, 0.8586616190375188, 0.8586616190375188, 0.6242730941480978),
  (1, 14, 25, 354, 0.011363758650315003, 0.011363758650315003, 0.00014418514932046378),
  (1, 14, 25, 354, 0.011363758650315003, 0.011363758650315003, 0.00014418514932046378),
  (2, 14, 12, 354, 1.4384801142904609, 1.4384801142904609, 3.100487669790116),
  (1, 14, 4, 354, 1.8439452223986252, 1.8439452223986252, 2.2582783506639608),
  (1, 14, 4, 354, 1.8439452223986252, 1.8439452223986252, 2.2582783506639608),
  (1, 14, 8, 354, 1.1507980418386798, 1.1507980418386798, 1.0332159954715863)]
#guard toyValues.all fun (x, r, c, n, p, q, l) =>
  near 1e-7 (pmi x r c n) p && near 1e-7 (if pmi x r c n < 0 then 0 else pmi x r c n) q && near 1e-7 (lik x r c n) l
-- test_calc_pmi
#guard ([(1938, 1311, 1159, 10.0349081703), (5578, 2749, 1384, 8.41470768304), (283891, 3293296, 3347, -1.72037278119),
    (1761436, 1375396, 1190, -3.70663100173)] : List (Float × Float × Float × Float)).all
  fun (r, c, x, p) => near 1e-8 (pmi x r c 50000952) p

/-! ### test_algs.py -/

-- test_average_similarity
#guard val (Verif.Cbc.averageSimilarity [1, 2] ([6/10, 5/10, 4/10, 3/10, 2/10, 1/10] : List ℚ)) = some (3/10)
#guard val (Verif.Cbc.averageSimilarity [1, 2, 3] ([6/10, 5/10, 4/10, 3/10, 2/10, 1/10] : List ℚ)) = some (2/10)
-- test_remove_duplicate
#guard (Verif.Cbc.removeDuplicate ([(5/10, [1, 2, 3]), (4/10, [2, 4, 5]), (40000000004/100000000000, [2, 5, 4]), (3/10, [0, 3, 5]), (2/10, [3, 5, 6]),
    (1/10, [3, 4, 6])] : List (ℚ × List Nat))).map Prod.fst = [5/10, 4/10, 3/10, 2/10, 1/10]
-- test_sub2glb, one case
#guard val (Verif.Cbc.sub2glb [2, 0] ["h", "b", "k"] ["a", "b", "c", "d", "e", "f", "h", "i", "j", "k"]) = some [9, 6]

end Verif.Check
