import Verif.Regex.PropsLayout
import Verif.Regex.PropsTokenMatrix
import Verif.Regex.PropsDepTemplates
import Verif.Cooc.Model
import Verif.Flow.Retrieve
import Verif.Matrix.Ops
import Verif.Matrix.Access
import Verif.Front.Vocab

/-!
# The model against recorded outputs of the code

The notebooks in `/repo/docs/tutorials` were saved with the outputs of a run of the code on the files of
`/repo/nephosem/tests/data/StanfDepSents`.  Here the model is evaluated on the same files and settings, and `#guard` compares what it
gives with what the notebooks show: item for item and cell for cell of every table shown.

These are tests of the model, not proofs, and no property relies on them.  `#guard` evaluates with the interpreter and adds no
theorem and no axiom.  Numbers in brackets are those of the notebook cells, counted from 0.
-/

namespace Verif.Check
open Verif.Py Verif.Vocab Verif.Window Verif.Engine Verif.Matrix Verif.Regex
open Verif.Vocab.Plain (Str)
open Verif.Items (Settings Formatter)

/-! ### Corpus and settings -/

/-- The corpus of the tutorial: the files of `/repo/nephosem/tests/data/StanfDepSents`, line by line. -/
def toy : List (String × List String) := [
  ("StanfDepSents.1.conll", ["<s id=\"1\">",
    "The\tDT\tthe\t1\t2\tdet",
    "girl\tNNS\tgirl\t2\t3\tnsubj",
    "looks\tVBZ\tlook\t3\t0\tROOT",
    "healthy\tJJ\thealthy\t4\t3\tacomp",
    "</s>",
    "<s id=\"2\">",
    "The\tDT\tthe\t1\t2\tdet",
    "boy\tNN\tboy\t2\t3\tnsubj",
    "looks\tVBZ\tlook\t3\t0\tROOT",
    "at\tIN\tat\t4\t3\tprep",
    "the\tDT\tthe\t5\t6\tdet",
    "girl\tNN\tgirl\t6\t4\tpobj",
    "as\tIN\tas\t7\t9\tmark",
    "she\tPRP\tshe\t8\t9\tnsubj",
    "eats\tVBZ\teat\t9\t3\tadvcl",
    "</s>",
    "<s id=\"3\">",
    "The\tDT\tthe\t1\t2\tdet",
    "girl\tNN\tgirl\t2\t3\tnsubj",
    "eats\tVBZ\teat\t3\t0\tROOT",
    "less\tRBR\tless\t4\t5\tadvmod",
    "healthy\tJJ\thealthy\t5\t6\tamod",
    "food\tNN\tfood\t6\t3\tdobj",
    "</s>"]),
  ("StanfDepSents.2.conll", ["<s id=\"4\">",
    "The\tDT\tthe\t1\t2\tdet",
    "apple\tNN\tapple\t2\t4\tnsubjpass",
    "is\tVBZ\tbe\t3\t4\tauxpass",
    "eaten\tVBN\teat\t4\t0\tROOT",
    "by\tIN\tby\t5\t4\tagent",
    "the\tDT\tthe\t6\t7\tdet",
    "boy\tNN\tboy\t7\t5\tpobj",
    "</s>",
    "<s id=\"5\">",
    "The\tDT\tthe\t1\t2\tdet",
    "boy\tNN\tboy\t2\t3\tnsubj",
    "eats\tVBZ\teat\t3\t0\tROOT",
    "very\tRB\tvery\t4\t5\tadvmod",
    "healthy\tJJ\thealthy\t5\t6\tamod",
    "food\tNN\tfood\t6\t3\tdobj",
    "</s>",
    "<s id=\"6\">",
    "Apples\tNNP\tapple\t1\t8\tnsubjpass",
    ",\t,\t,\t2\t1\tpunct",
    "a\tDT\ta\t3\t5\tdet",
    "healthy\tJJ\thealthy\t4\t5\tamod",
    "food\tNN\tfood\t5\t1\tappos",
    ",\t,\t,\t6\t8\tpunct",
    "are\tVBP\tbe\t7\t8\tauxpass",
    "eaten\tVBN\teat\t8\t0\tROOT",
    "by\tIN\tby\t9\t8\tagent",
    "the\tDT\tthe\t10\t11\tdet",
    "girl\tNN\tgirl\t11\t9\tpobj",
    "</s>"]),
  ("StanfDepSents.3.conll", ["<s id=\"7\">",
    "The\tDT\tthe\t1\t2\tdet",
    "boy\tNN\tboy\t2\t4\tnsubj",
    "should\tMD\tshould\t3\t4\taux",
    "eat\tVB\teat\t4\t0\tROOT",
    "an\tDT\tan\t5\t6\tdet",
    "apple\tNN\tapple\t6\t4\tdobj",
    "</s>",
    "<s id=\"8\">",
    "The\tDT\tthe\t1\t2\tdet",
    "apple\tNN\tapple\t2\t5\tnsubjpass",
    "has\tVBZ\thave\t3\t5\taux",
    "been\tVBN\tbe\t4\t5\tauxpass",
    "eaten\tVBN\teat\t5\t0\tROOT",
    "</s>",
    "<s id=\"9\">",
    "The\tDT\tthe\t1\t2\tdet",
    "boy\tNN\tboy\t2\t6\tnsubj",
    "and\tCC\tand\t3\t2\tcc",
    "the\tDT\tthe\t4\t5\tdet",
    "girl\tNN\tgirl\t5\t2\tconj",
    "eat\tVB\teat\t6\t0\tROOT",
    "a\tDT\ta\t7\t11\tdet",
    "healthy\tJJ\thealthy\t8\t11\tamod",
    "and\tCC\tand\t9\t8\tcc",
    "tasty\tJJ\ttasty\t10\t8\tconj",
    "apple\tNN\tapple\t11\t6\tdobj",
    "</s>"]),
  ("StanfDepSents.4.conll", ["<s id=\"10\">",
    "The\tDT\tthe\t1\t2\tdet",
    "boy\tNN\tboy\t2\t3\tnsubj",
    "says\tVBZ\tsay\t3\t0\tROOT",
    "that\tIN\tthat\t4\t8\tmark",
    "the\tDT\tthe\t5\t6\tdet",
    "girl\tNN\tgirl\t6\t8\tnsubj",
    "should\tMD\tshould\t7\t8\taux",
    "eat\tVB\teat\t8\t3\tccomp",
    "the\tDT\tthe\t9\t10\tdet",
    "apple\tNN\tapple\t10\t8\tdobj",
    "</s>",
    "<s id=\"11\">",
    "The\tDT\tthe\t1\t2\tdet",
    "girl\tNN\tgirl\t2\t3\tnsubj",
    "eats\tVBZ\teat\t3\t0\tROOT",
    "the\tDT\tthe\t4\t5\tdet",
    "apple\tNN\tapple\t5\t3\tdobj",
    "that\tWDT\tthat\t6\t11\tdobj",
    "the\tDT\tthe\t7\t8\tdet",
    "baby\tNN\tbaby\t8\t9\tcompound",
    "boy\tNN\tboy\t9\t11\tnsubj",
    "has\tVBZ\thave\t10\t11\taux",
    "given\tVBN\tgive\t11\t5\trelcl",
    "her\tPRP\ther\t12\t11\tdative",
    "</s>",
    "<s id=\"12\">",
    "The\tDT\tthe\t1\t2\tdet",
    "apple\tNN\tapple\t2\t3\tnsubj",
    "is\tVBZ\tbe\t3\t0\tROOT",
    "healthy\tJJ\thealthy\t4\t3\tacomp",
    "and\tCC\tand\t5\t4\tcc",
    "tasty\tJJ\ttasty\t6\t4\tconj",
    "</s>"]),
  ("StanfDepSents.5.conll", ["<s id=\"13\">",
    "The\tDT\tthe\t1\t2\tdet",
    "boy\tNN\tboy\t2\t3\tnsubj",
    "sits\tVBZ\tsit\t3\t0\tROOT",
    "and\tCC\tand\t4\t3\tcc",
    "eats\tVBZ\teat\t5\t3\tconj",
    "</s>",
    "<s id=\"14\">",
    "What\tWP\twhat\t1\t4\tdobj",
    "the\tDT\tthe\t2\t3\tdet",
    "boy\tNN\tboy\t3\t4\tnsubj",
    "eats\tVBZ\teat\t4\t5\tcsubj",
    "looks\tVBZ\tlook\t5\t0\tROOT",
    "tasty\tJJ\ttasty\t6\t5\tacomp",
    "</s>",
    "<s id=\"15\">",
    "What\tWP\twhat\t1\t4\tdobj",
    "the\tDT\tthe\t2\t3\tdet",
    "girl\tNN\tgirl\t3\t4\tnsubj",
    "eats\tVBZ\teat\t4\t6\tcsubjpass",
    "was\tVBD\tbe\t5\t6\tauxpass",
    "given\tVBN\tgive\t6\t0\tROOT",
    "by\tIN\tby\t7\t6\tagent",
    "the\tDT\tthe\t8\t9\tdet",
    "boy\tNN\tboy\t9\t7\tpobj",
    "</s>"]),
  ("StanfDepSents.6.conll", ["<s id=\"16\">",
    "The\tDT\tthe\t1\t2\tdet",
    "boy\tNN\tboy\t2\t3\tnsubj",
    "gives\tVBZ\tgive\t3\t0\tROOT",
    "the\tDT\tthe\t4\t5\tdet",
    "girl\tNN\tgirl\t5\t3\tdative",
    "a\tDT\ta\t6\t9\tdet",
    "tasty\tJJ\ttasty\t7\t9\tamod",
    "healthy\tJJ\thealthy\t8\t9\tamod",
    "apple\tNN\tapple\t9\t3\tdobj",
    "</s>",
    "<s id=\"17\">",
    "The\tDT\tthe\t1\t2\tdet",
    "boy\tNN\tboy\t2\t3\tnsubj",
    "is\tVBZ\tbe\t3\t0\tROOT",
    "not\tRB\tnot\t4\t3\tneg",
    "healthy\tJJ\thealthy\t5\t3\tacomp",
    "</s>",
    "<s id=\"18\">",
    "The\tDT\tthe\t1\t2\tdet",
    "girl\tNN\tgirl\t2\t5\tnsubj",
    "does\tVBZ\tdo\t3\t5\taux",
    "n't\tRB\tnot\t4\t5\tneg",
    "eat\tVB\teat\t5\t0\tROOT",
    "</s>"]),
  ("StanfDepSents.7.conll", ["<s id=\"19\">",
    "The\tDT\tthe\t1\t3\tdet",
    "old\tJJ\told\t2\t3\tamod",
    "boy\tNN\tboy\t3\t4\tnsubj",
    "gives\tVBZ\tgive\t4\t0\tROOT",
    "the\tDT\tthe\t5\t6\tdet",
    "girl\tNN\tgirl\t6\t4\tdative",
    "a\tDT\ta\t7\t9\tdet",
    "baby\tNN\tbaby\t8\t9\tcompound",
    "apple\tNN\tapple\t9\t4\tdobj",
    "</s>",
    "<s id=\"20\">",
    "The\tDT\tthe\t1\t2\tdet",
    "boy\tNN\tboy\t2\t3\tnsubj",
    "is\tVBZ\tbe\t3\t0\tROOT",
    "ten\tCD\tten\t4\t5\tnummod",
    "years\tNNS\tyear\t5\t6\tnpadvmod",
    "old\tJJ\told\t6\t3\tacomp",
    "</s>",
    "<s id=\"21\">",
    "The\tDT\tthe\t1\t2\tdet",
    "boy\tNN\tboy\t2\t3\tnsubj",
    "asked\tVBD\task\t3\t0\tROOT",
    "the\tDT\tthe\t4\t5\tdet",
    "girl\tNN\tgirl\t5\t3\tdobj",
    "about\tIN\tabout\t6\t3\tprep",
    "eating\tVBG\teat\t7\t6\tpcomp",
    "apples\tNNS\tapple\t8\t7\tdobj",
    "</s>"]),
  ("StanfDepSents.8.conll", ["<s id=\"22\">",
    "The\tDT\tthe\t1\t2\tdet",
    "girl\tNN\tgirl\t2\t3\tnsubj",
    "sat\tVBD\tsit\t3\t0\tROOT",
    "on\tIN\ton\t4\t3\tprep",
    "the\tDT\tthe\t5\t6\tdet",
    "apple\tNN\tapple\t6\t4\tpobj",
    "</s>",
    "<s id=\"23\">",
    "The\tDT\tthe\t1\t2\tdet",
    "boy\tNN\tboy\t2\t3\tnsubj",
    "looked\tVBD\tlook\t3\t0\tROOT",
    "at\tIN\tat\t4\t3\tprep",
    "the\tDT\tthe\t5\t6\tdet",
    "girl\tNN\tgirl\t6\t8\tposs",
    "'s\tPOS\t's\t7\t6\tcase",
    "apple\tNN\tapple\t8\t4\tpobj",
    "</s>",
    "<s id=\"24\">",
    "Both\tDT\tboth\t1\t3\tpreconj",
    "the\tDT\tthe\t2\t3\tdet",
    "boys\tNNS\tboy\t3\t7\tnsubj",
    "and\tCC\tand\t4\t3\tcc",
    "the\tDT\tthe\t5\t6\tdet",
    "girls\tNNS\tgirl\t6\t3\tconj",
    "eat\tVB\teat\t7\t0\tROOT",
    "apples\tNNS\tapple\t8\t7\tdobj",
    "</s>"]),
  ("StanfDepSents.9.conll", ["<s id=\"25\">",
    "All\tPDT\tall\t1\t4\tpredet",
    "the\tDT\tthe\t2\t4\tdet",
    "old\tJJ\told\t3\t4\tamod",
    "boys\tNNS\tboy\t4\t6\tnsubjpass",
    "were\tVBD\tbe\t5\t6\tauxpass",
    "given\tVBN\tgive\t6\t0\tROOT",
    "an\tDT\tan\t7\t8\tdet",
    "apple\tNN\tapple\t8\t6\tdobj",
    "</s>",
    "<s id=\"26\">",
    "The\tDT\tthe\t1\t3\tdet",
    "older\tJJR\told\t2\t3\tamod",
    "girl\tNN\tgirl\t3\t4\tnsubj",
    "looks\tVBZ\tlook\t4\t0\tROOT",
    "at\tIN\tat\t5\t4\tprep",
    "a\tDT\ta\t6\t7\tdet",
    "boy\tNN\tboy\t7\t5\tpobj",
    "in\tIN\tin\t8\t7\tprep",
    "the\tDT\tthe\t9\t10\tdet",
    "house\tNN\thouse\t10\t8\tpobj",
    "</s>",
    "<s id=\"27\">",
    "Apples\tNNS\tapple\t1\t2\tnsubj",
    "are\tVBP\tbe\t2\t0\tROOT",
    "healthy\tJJ\thealthy\t3\t2\tacomp",
    "for\tIN\tfor\t4\t3\tprep",
    "boys\tNNS\tboy\t5\t4\tpobj",
    "</s>"]),
  ("StanfDepSents.10.conll", ["<s id=\"28\">",
    "The\tDT\tthe\t1\t2\tdet",
    "boy\tNN\tboy\t2\t3\tnsubj",
    "eats\tVBZ\teat\t3\t0\tROOT",
    "without\tIN\twithout\t4\t3\tprep",
    "looking\tVBG\tlook\t5\t4\tpcomp",
    "at\tIN\tat\t6\t5\tprep",
    "the\tDT\tthe\t7\t8\tdet",
    "food\tNN\tfood\t8\t6\tpobj",
    "</s>",
    "<s id=\"29\">",
    "The\tDT\tthe\t1\t2\tdet",
    "girl\tNN\tgirl\t2\t3\tnsubj",
    "sits\tVBZ\tsit\t3\t0\tROOT",
    "down\tRP\tdown\t4\t3\tprt",
    "</s>",
    "<s id=\"30\">",
    "The\tDT\tthe\t1\t2\tdet",
    "girl\tNN\tgirl\t2\t3\tnsubj",
    "eats\tVBZ\teat\t3\t0\tROOT",
    "about\tRB\tabout\t4\t5\tadvmod",
    "ten\tJJ\tten\t5\t6\tnummod",
    "apples\tNNS\tapple\t6\t3\tdobj",
    "</s>"]),
  ("StanfDepSents.11.conll", ["<s id=\"31\">",
    "The\tDT\tthe\t1\t2\tdet",
    "girl\tNN\tgirl\t2\t3\tnsubj",
    "looks\tVBZ\tlook\t3\t0\tROOT",
    "at\tIN\tat\t4\t3\tprep",
    "the\tDT\tthe\t5\t6\tdet",
    "boy\tNN\tboy\t6\t4\tpobj",
    "she\tPRP\tshe\t7\t8\tnsubj",
    "loves\tVBZ\tlove\t8\t6\trelcl",
    "</s>",
    "<s id=\"32\">",
    "The\tDT\tthe\t1\t2\tdet",
    "boy\tNN\tboy\t2\t3\tnsubj",
    "eats\tVBZ\teat\t3\t0\tROOT",
    "the\tDT\tthe\t4\t5\tdet",
    "apple\tNN\tapple\t5\t3\tdobj",
    "which\tWDT\twhich\t6\t9\tdobj",
    "the\tDT\tthe\t7\t8\tdet",
    "girl\tNN\tgirl\t8\t9\tnsubj",
    "gave\tVBD\tgive\t9\t5\trelcl",
    "him\tPRP\thim\t10\t9\tdative",
    "</s>",
    "<s id=\"33\">",
    "This\tDT\tthis\t1\t2\tdet",
    "year\tNN\tyear\t2\t6\tnpadvmod",
    ",\t,\t,\t3\t6\tpunct",
    "the\tDT\tthe\t4\t5\tdet",
    "girl\tNN\tgirl\t5\t6\tnsubj",
    "looked\tVBD\tlook\t6\t0\tROOT",
    "at\tIN\tat\t7\t6\tprep",
    "a\tDT\ta\t8\t9\tdet",
    "boy\tNN\tboy\t9\t7\tpobj",
    "</s>"]),
  ("StanfDepSents.12.conll", ["<s id=\"34\">",
    "Apples\tNNP\tapple\t1\t6\tnsubj",
    "eaten\tVBN\teat\t2\t1\tvmod",
    "during\tIN\tduring\t3\t2\tprep",
    "the\tDT\tthe\t4\t5\tdet",
    "year\tNN\tyear\t5\t3\tpobj",
    "are\tVBP\tbe\t6\t0\tROOT",
    "tasty\tJJ\ttasty\t7\t6\tacomp",
    "</s>",
    "<s id=\"35\">",
    "The\tDT\tthe\t1\t2\tdet",
    "boy\tNN\tboy\t2\t3\tnsubj",
    "likes\tVBZ\tlike\t3\t0\tROOT",
    "to\tTO\tto\t4\t5\taux",
    "eat\tVB\teat\t5\t3\txcomp",
    "an\tDT\tan\t6\t7\tdet",
    "apple\tNN\tapple\t7\t5\tdobj",
    "</s>",
    "<s id=\"36\">",
    "Apples\tNNS\tapple\t1\t2\tnsubj",
    "are\tVBP\tbe\t2\t0\tROOT",
    "healthy\tJJ\thealthy\t3\t2\tacomp",
    "to\tTO\tto\t4\t5\taux",
    "eat\tVB\teat\t5\t3\txcomp",
    "</s>"])]
/-- The files with the lines that Python reads from them. -/
def strFiles : List (Str × List Str) := toy.map (fun F => (F.1.toList, fileLines ("\n".intercalate F.2).toList))

/-- The formatter of the settings, all-in-one [16]-[22]: the model of the constructor takes them. -/
def fmt? : Option Formatter :=
  match Verif.Items.construct tutorial with
  | .ok (_, f) => some f
  | .error _ => none

/-- The formatter as the loops over lines use it. -/
def cf : Verif.Corpus.Formatter Str Verif.Items.Match Str :=
  match fmt? with
  | some f => asFormatter (reMatch ascii) f
  | none => ⟨fun _ => none, fun _ => false, fun _ => [], fun _ => []⟩

/-- A run with `W` workers who take turns: in every round the parent puts what it can, each worker takes a job, each worker does it. -/
def drive {J A R : Type} (p : Prog J A R) (W : Nat) : Nat → State J A R → State J A R
  | 0, s => s
  | n + 1, s =>
    let acts := Action.produce :: ((List.range W).map Action.take ++ (List.range W).map Action.work)
    drive p W n (acts.foldl (fun s a => (step p a s).getD s) s)

/-- The value of a call that may raise an exception or return nothing. -/
def ok {α ε : Type} (x : Except ε (Option α)) : Option α :=
  match x with
  | .ok y => y
  | .error _ => none

/-- The value of a call that may raise an exception. -/
def val {α ε : Type} (x : Except ε α) : Option α :=
  match x with
  | .ok y => some y
  | .error _ => none

/-- A list of strings. -/
def strs (l : List String) : List Str := l.map String.toList

/-- A cell of a table as it is shown. -/
def showCell {κ ν : Type} (item : κ → String) (num : ν → String) (c : Cell κ ν) : String :=
  match c with
  | .shape a b => s!"[{a},{b}]"
  | .item k => item k
  | .num v => num v
  | .nan => "NaN"
  | .dots => "..."

/-- What Python shows for a matrix: seven rows and columns.  Cells are joined by a blank, which no item contains. -/
def shown {κ ν : Type} (item : κ → String) (num : ν → String) (m : Option (Mtx κ ν)) : List String :=
  match m with
  | none => []
  | some m =>
    match printTable m (some 7) (some 7) with
    | .ok t => t.map (fun r => " ".intercalate (r.map (showCell item num)))
    | .error _ => ["error"]

/-! ### Frequency lists: vocab.ipynb -/

/-- `build_item_freq` with `W` workers. -/
def freqRun (W : Nat) : Option (Vocab Str) :=
  let p := perJob (Verif.Corpus.itemFreqFile cf)
  (readN strFiles.length (drive p W 100 (start p W (strFiles.map Prod.snd)))).map Verif.Corpus.mergeFreqs

/-- The vocabulary. -/
def vocab : Vocab Str := (freqRun 4).getD Vocab.empty

/-- Items and frequencies as they are shown. -/
def items (l : List (Str × Int)) : List (String × Int) := l.map (fun e => (String.ofList e.1, e.2))

-- [6], [7]
#guard (Verif.Vocab.len vocab) = 55
#guard (Verif.Vocab.sumFreq vocab) = 264
-- The number of workers makes no difference.
#guard (freqRun 1).any (fun v => Verif.Vocab.equal v vocab)
#guard (freqRun 20).any (fun v => Verif.Vocab.equal v vocab)
-- [5], without the statistics that pandas computes
#guard vocab.freq.values.foldl max 0 = 53
#guard vocab.freq.values.foldl min 53 = 1
#guard (Py.sortedBy id vocab.freq.values)[27]? = some 1
-- [16]
#guard items ((Verif.Vocab.dataframe vocab).take 5) = [("the/D", 53), ("boy/N", 25), ("eat/V", 22), ("apple/N", 21), ("girl/N", 21)]
-- [17]
#guard items ((Verif.Vocab.dataframe vocab).drop 52) = [("very/R", 1), ("which/W", 1), ("without/I", 1)]
-- [9]
#guard items (Py.sortedBy Prod.fst (Verif.Vocab.select1 vocab (.items (Verif.Vocab.compare vocab .gt 10))).freq) =
  [("apple/N", 21), ("be/V", 11), ("boy/N", 25), ("eat/V", 22), ("girl/N", 21), ("the/D", 53)]
-- [10]
#guard items (Verif.Vocab.select1 vocab (.slice none (some 3))).freq = [("the/D", 53), ("boy/N", 25), ("eat/V", 22)]
-- [12]
#guard ((val (vocabMatch ascii "^..+/N.*".toList "item".toList vocab)).map fun l => items (Py.sortedBy Prod.fst (Verif.Vocab.select1 vocab (.items l)).freq)) =
  some [("apple/N", 21), ("baby/N", 2), ("boy/N", 25), ("food/N", 4), ("girl/N", 21), ("house/N", 1), ("year/N", 3)]
-- [14]
#guard items (Verif.Vocab.subvocab vocab (strs ["boy/N", "girl/N", "vector/N"])).freq = [("boy/N", 25), ("girl/N", 21), ("vector/N", 0)]
-- [19], [20], [22]
#guard val (Verif.Vocab.getItemList (Verif.Vocab.select1 vocab (.slice (some 3) (some 5)))) = some (strs ["apple/N", "girl/N"])
#guard (val (Verif.Vocab.getItemList vocab)).map (fun l => pySlice l (some 3) (some 5)) = some (strs ["about/I", "about/R"])
#guard (val (Verif.Vocab.getItemList vocab .freq true)).map (fun l => pySlice l (some 3) (some 5)) = some (strs ["apple/N", "girl/N"])

/-! ### Co-occurrence frequencies: matrices.ipynb and all-in-one.ipynb -/

/-- `build_col_freq` with `W` workers and spans of four words, all-in-one [35]. -/
def cooRun (W : Nat) : Option (Mtx Str Int) :=
  let p := Verif.Cooc.colProg cf 4 4 vocab vocab
  ok (Verif.Cooc.buildColFreq vocab (drive p W 100 (start p W (strFiles.map Prod.snd))))

/-- The matrix of co-occurrences. -/
def coo : Option (Mtx Str Int) := cooRun 4

/-- What Python shows for it. -/
def ints : Option (Mtx Str Int) → List String := shown String.ofList toString

/-- The number of stored elements. -/
def stored {κ ν : Type} (m : Mtx κ ν) : Option Nat :=
  match m.body with
  | .sp s => some s.data.length
  | .dn _ => none

/-- `m.submatrix(row=rows, col=cols)`. -/
def sub (rows cols : Option (List String)) (m : Mtx Str Int) : Option (Mtx Str Int) := ok (submatrix m (rows.map strs) (cols.map strs))

/-- `m > n` as numbers, to multiply with it. -/
def bits (m : Mtx Str Bool) : Option (Mtx Str Int) :=
  match m.body with
  | .sp s => val (mkMtx (.sp { fmt := s.fmt, nr := s.nr, nc := s.nc, data := s.data.map (fun e => (e.1, if e.2 then 1 else 0)) }) m.rows m.cols)
  | .dn _ => none

-- [4], [7]-[9]
#guard ints coo = [
  "[55,55] 's/P ,/, a/D about/I about/R all/P an/D ...",
  "'s/P NaN NaN NaN NaN NaN NaN NaN ...",
  ",/, NaN 2 2 NaN NaN NaN NaN ...",
  "a/D NaN 2 NaN NaN NaN NaN NaN ...",
  "about/I NaN NaN NaN NaN NaN NaN NaN ...",
  "about/R NaN NaN NaN NaN NaN NaN NaN ...",
  "all/P NaN NaN NaN NaN NaN NaN NaN ...",
  "an/D NaN NaN NaN NaN NaN NaN NaN ...",
  "... ... ... ... ... ... ... ... ..."]
-- [6]: 606 stored elements.
#guard coo.bind stored = some 606
#guard ints (cooRun 1) = ints coo && (cooRun 1).bind stored = coo.bind stored

/-- The sentences of a file: the types of the lines between the separators. -/
def sentences (lines : List Str) : List (List Str) :=
  (lines.foldl (fun (st : List (List Str)) l =>
    if cf.isSep l then [] :: st
    else match cf.matchLine l, st with
      | some m, s :: ss => (s ++ [cf.getType m]) :: ss
      | _, st => st) [[]]).reverse

/-- What one would expect to be counted: the pairs of words of one sentence that are at most four words apart. -/
def neighbours : List (Str × Str) :=
  (strFiles.flatMap (fun F => (sentences F.2).flatMap (fun s =>
    (s.zipIdx.product s.zipIdx).filter (fun p => p.1.2 ≠ p.2.2 && p.1.2 ≤ p.2.2 + 4 && p.2.2 ≤ p.1.2 + 4) |>.map (fun p => (p.1.1, p.2.1))))).eraseDups
-- These are 610 pairs: the notebook shows what C10 says of sentences that are too short.
#guard neighbours.length = 610

-- [14]
#guard ints (coo.bind (sub (some ["girl/N", "boy/N", "apple/N"]) none)) = [
  "[3,55] 's/P ,/, a/D about/I about/R all/P an/D ...",
  "girl/N 1 1 5 1 1 NaN NaN ...",
  "boy/N NaN NaN 4 1 NaN 1 3 ...",
  "apple/N 1 1 4 1 1 NaN 3 ..."]
-- [15]
#guard ints (coo.bind (sub none (some ["give/V", "eat/V", "ask/V"]))) = [
  "[55,3] give/V eat/V ask/V", "'s/P NaN NaN NaN", ",/, NaN 1 NaN", "a/D 2 1 NaN", "about/I NaN 1 1", "about/R NaN 1 NaN",
  "all/P NaN NaN NaN", "an/D 1 2 NaN", "... ... ... ..."]
-- [16]
#guard ints (coo.bind (sub (some ["girl/N", "boy/N", "apple/N"]) (some ["give/V", "eat/V", "ask/V"]))) = [
  "[3,3] give/V eat/V ask/V", "girl/N 4 11 1", "boy/N 5 10 1", "apple/N 2 12 NaN"]
-- [18]
#guard ints ((coo.bind (sub (some ["about/R"]) none)).bind fun m => ok (dropCols m 0)) = [
  "[1,5] apple/N eat/V girl/N ten/J the/D", "about/R 1 1 1 1 1"]
-- [19]
#guard ints ((coo.bind (sub none (some ["give/V", "eat/V", "ask/V"]))).bind fun m => ok (dropRows m 0)) = [
  "[43,3] give/V eat/V ask/V", ",/, NaN 1 NaN", "a/D 2 1 NaN", "about/I NaN 1 1", "about/R NaN 1 NaN", "an/D 1 2 NaN", "and/C NaN 4 NaN",
  "apple/N 2 12 NaN", "... ... ... ..."]
-- [20]
#guard ints ((coo.bind (sub none (some ["give/V", "eat/V", "ask/V"]))).bind fun m => ok (dropRows m 1)) = [
  "[13,3] give/V eat/V ask/V", "a/D 2 1 NaN", "about/I NaN 1 1", "an/D 1 2 NaN", "apple/N 2 12 NaN", "be/V 2 6 NaN", "boy/N 5 10 1", "by/I 1 3 NaN",
  "... ... ... ..."]
-- [22]
#guard (coo.bind fun m => val (getItem m (.pair (.name "apple/N".toList) (.name "girl/N".toList)))) = some (.scalar 10)
-- [24]
#guard shown String.ofList (fun b => if b then "True" else "False") (coo.bind fun m => val (compare m .gt (some 1))) = [
  "[55,55] 's/P ,/, a/D about/I about/R all/P an/D ...",
  "'s/P NaN NaN NaN NaN NaN NaN NaN ...",
  ",/, NaN True True NaN NaN NaN NaN ...",
  "a/D NaN True NaN NaN NaN NaN NaN ...",
  "about/I NaN NaN NaN NaN NaN NaN NaN ...",
  "about/R NaN NaN NaN NaN NaN NaN NaN ...",
  "all/P NaN NaN NaN NaN NaN NaN NaN ...",
  "an/D NaN NaN NaN NaN NaN NaN NaN ...",
  "... ... ... ... ... ... ... ... ..."]
-- [26]
#guard ints (do
    let m ← coo
    let c ← val (compare m .gt (some 1))
    let p ← val (multiply m (← bits c))
    let d ← ok (dropCols p 0)
    ok (dropRows d 0)) = [
  "[35,35] ,/, a/D an/D and/C apple/N ask/V at/I ...",
  ",/, 2 2 NaN NaN NaN NaN NaN ...",
  "a/D 2 NaN NaN 2 4 NaN 2 ...",
  "an/D NaN NaN NaN NaN 3 NaN NaN ...",
  "and/C NaN 2 NaN NaN 3 NaN NaN ...",
  "apple/N NaN 4 3 3 NaN NaN NaN ...",
  "ask/V NaN NaN NaN NaN NaN NaN NaN ...",
  "at/I NaN 2 NaN NaN NaN NaN NaN ...",
  "... ... ... ... ... ... ... ... ..."]

/-! ### Tokens: all-in-one.ipynb -/

/-- `retrieve_tokens` of a `TokenHandler` for `girl/N` with `W` workers, [57]. -/
def tokRun (W : Nat) : Option (Mtx Str Int) :=
  let p := Verif.Flow.retrieveProg cf 4 4 Vocab.empty (strs ["girl/N"])
  match fmt? with
  | none => none
  | some f => (Verif.Flow.retrieve cf (nameOf f) id strFiles.length (drive p W 100 (start p W strFiles))).bind val

/-- The files come back in another order in the notebook: the rows and columns that it shows. -/
def tokShown : List String × List String :=
  (["girl/N/StanfDepSents.10/13", "girl/N/StanfDepSents.10/19", "girl/N/StanfDepSents.11/3", "girl/N/StanfDepSents.11/19",
    "girl/N/StanfDepSents.11/28", "girl/N/StanfDepSents.7/7", "girl/N/StanfDepSents.7/25"],
   ["which/W", "say/V", "she/P", "boy/N", "this/D", "about/I", "give/V"])

#guard (tokRun 4).map (fun m => (m.rows.length, m.cols.length)) = some (21, 39)
#guard ints ((tokRun 4).bind (sub (some tokShown.1) (some tokShown.2))) = [
  "[7,7] which/W say/V she/P boy/N this/D about/I give/V",
  "girl/N/StanfDepSents.10/13 NaN NaN NaN NaN NaN NaN NaN",
  "girl/N/StanfDepSents.10/19 NaN NaN NaN NaN NaN NaN NaN",
  "girl/N/StanfDepSents.11/3 NaN NaN NaN 4 NaN NaN NaN",
  "girl/N/StanfDepSents.11/19 -2 NaN NaN NaN NaN NaN 1",
  "girl/N/StanfDepSents.11/28 NaN NaN NaN 4 -4 NaN NaN",
  "girl/N/StanfDepSents.7/7 NaN NaN NaN -3 NaN NaN -2",
  "girl/N/StanfDepSents.7/25 NaN NaN NaN -3 NaN 1 NaN"]

/-! ### Dependencies: all-in-one.ipynb -/

open Verif.Dep

/-- An element of an XML document. -/
def el (t : String) (as : List (String × String)) (cs : List Xml) : Xml := .elem t.toList (as.map fun a => (a.1.toList, a.2.toList)) cs

/-- The formats of targets and features in the macro files of `/repo/nephosem/tests/data/templates`. -/
def fmtXml (groups : List String) (s : String) (more : List Xml) : List Xml :=
  [el "node-fmt" [] (groups.map (fun g => el g [("group", "1")] []) ++ [el "string" [("connector", "/")] [.text s.toList]])] ++ more

/-- A macro in such a file. -/
def macXml (id patt target : String) (feature : List (String × String)) : Xml :=
  el "target-feature-macro" [("id", id)] [el "sub-graph-pattern" [("id", patt)] [],
    el "target" [("nodeID", target)] [el "description" [] [.text "Empty".toList]], el "feature" feature []]

/-- The whole file. -/
def listXml (ms : List Xml) : List Xml :=
  [el "target-feature-list" [] ([el "target-fmt" [] (fmtXml ["lemma", "pos", "fid", "lid"] "lemma/pos/fid/lid" []),
    el "feature-fmt" [] (fmtXml ["lemma", "pos"] "lemma/pos" [el "edge-fmt" [] [.text "deprel".toList]])] ++ ms)]

/-- A pattern of the template files: nodes `1` to `n` with the default conditions, and the edges. -/
def patt (id n : Nat) (edges : List ((Nat × Nat) × String)) : Option Pattern :=
  match patternOf ⟨(List.range n).map (fun i => (i + 1, [("lemma", "(.+)"), ("pos", "(\\w+)")])), edges.map (fun e => (e.1, [("deprel", e.2)]))⟩ with
  | .ok p => some { p with id := some id }
  | .error _ => none

/-- `MacroGraph.read_xml`. -/
def macs (doc : List Xml) (ps : List (Option Pattern)) : List Macro :=
  match readXml (fun s => (String.ofList s).toNat?) doc (ps.filterMap id) with
  | .ok ms => ms.map ReadMacro.mac
  | .error _ => []

/-- What is connected with the nodes of a list by up to so many edges, whatever their directions. -/
def reached (g : Graph) : Nat → List Nat → List Nat
  | 0, l => l
  | n + 1, l => reached g n (g.edges.keys.foldl (fun l e =>
      let l := if e.1 ∈ l ∧ e.2 ∉ l then e.2 :: l else l
      if e.2 ∈ l ∧ e.1 ∉ l then e.1 :: l else l) l)

/-- `networkx.is_tree`. -/
def isTree (g : Graph) : Bool :=
  match g.nodes.keys with
  | [] => false
  | u :: us => (g.edges.length == us.length) && (reached g us.length [u]).length == us.length + 1

/-- The settings for dependencies, [16]-[22]. -/
def depSettings : LineFormat :=
  depFormat ascii String.toNat? "([^\t]+)\t([^\t])[^\t]*\t([^\t]+)\t([^\t]+)\t([^\t]+)\t([^\t]+)".toList "</s>".toList
    ["word", "pos", "lemma", "id", "head", "deprel"] ["lemma", "pos"] (some ["deprel"]) "id" "head"

/-- The corpus as `read_sentence` gets it; the names without `.conll`. -/
def depFiles : List CorpusFile := toy.map (fun F => ⟨String.ofList (F.1.toList.take (F.1.length - 6)), depLines ("\n".intercalate F.2).toList⟩)

/-- `build_dependency`. -/
def depRun (tok : Bool) (targets : List String) (ms : List Macro) : Option (Mtx String Int) :=
  val (matchMatrix (grpS ascii) tok
    (withFound ms (fun i => depFiles.flatMap (fun c => depFound (rxS ascii) isTree depSettings tok targets ms c i))))

/-- All types of the vocabulary. -/
def allTargets : List String := vocab.freq.keys.map String.ofList

/-- The row of `girl/N` without empty columns. -/
def girlRow (m : Option (Mtx String Int)) : Option (Mtx String Int) :=
  m.bind fun m => (ok (submatrix m (some ["girl/N"]) none)).bind fun m => ok (dropCols m 0)

/-- What Python shows. -/
def depShown : Option (Mtx String Int) → List String := shown id toString

/-- `LEMMAPATH1-Stanford.target-feature-macro.xml`, [40]. -/
def pathMacros : List Macro :=
  macs (listXml [macXml "1" "1" "1" [("featureID", "2")], macXml "2" "1" "2" [("featureID", "1")]]) [patt 1 2 [((1, 2), "\\w+")]]

/-- `LEMMAPATH1-Stanford-full.target-feature-macro.xml`, [45]. -/
def fullMacros : List Macro := macs (listXml [macXml "1" "1" "1" [], macXml "2" "1" "2" []]) [patt 1 2 [((1, 2), "\\w+")]]

/-- `LEMMAREL1-Stanford.nouns.target-feature-macro.xml`, [59]. -/
def relMacros : List Macro :=
  macs (listXml [macXml "1" "1" "2" [("featureID", "1")], macXml "2" "2" "1" [("featureID", "2")], macXml "3" "3" "3" [("featureID", "2")]])
    [patt 1 2 [((1, 2), "dobj|nsubj")], patt 2 2 [((1, 2), "mod")], patt 3 3 [((1, 2), "prep"), ((2, 3), "pobj")]]

#guard (pathMacros.length, fullMacros.length, relMacros.length) = (2, 2, 3)
-- [41]
#guard depShown (depRun false allTargets pathMacros) = [
  "[54,54] 's/P a/D about/I about/R all/P an/D and/C ...",
  "'s/P NaN NaN NaN NaN NaN NaN NaN ...",
  "a/D NaN NaN NaN NaN NaN NaN NaN ...",
  "about/I NaN NaN NaN NaN NaN NaN NaN ...",
  "about/R NaN NaN NaN NaN NaN NaN NaN ...",
  "all/P NaN NaN NaN NaN NaN NaN NaN ...",
  "an/D NaN NaN NaN NaN NaN NaN NaN ...",
  "and/C NaN NaN NaN NaN NaN NaN NaN ...",
  "... ... ... ... ... ... ... ... ..."]
-- [43]
#guard depShown (girlRow (depRun false allTargets pathMacros)) = [
  "[1,12] 's/P apple/N ask/V at/I boy/N by/I eat/V ...",
  "girl/N 1 1 1 1 2 1 6 ..."]
-- [45]
#guard depShown (girlRow (depRun false allTargets fullMacros)) = [
  "[1,12] #T#->*:'s/P #T#->*:old/J #T#->*:the/D apple/N->*:#T# ask/V->*:#T# at/I->*:#T# boy/N->*:#T# ...",
  "girl/N 1 1 21 1 1 1 2 ..."]
-- [61]
#guard depShown (depRun true ["girl/N"] relMacros) = [
  "[15,6] ask/V at/I eat/V give/V look/V sit/V",
  "girl/N/StanfDepSents.1/13 NaN 1 NaN NaN NaN NaN",
  "girl/N/StanfDepSents.1/20 NaN NaN 1 NaN NaN NaN",
  "girl/N/StanfDepSents.1/3 NaN NaN NaN NaN 1 NaN",
  "girl/N/StanfDepSents.10/13 NaN NaN NaN NaN NaN 1",
  "girl/N/StanfDepSents.10/19 NaN NaN 1 NaN NaN NaN",
  "girl/N/StanfDepSents.11/19 NaN NaN NaN 1 NaN NaN",
  "girl/N/StanfDepSents.11/28 NaN NaN NaN NaN 1 NaN",
  "... ... ... ... ... ... ..."]
-- [63]
#guard depShown (depRun true ["girl/N"] pathMacros) = [
  "[21,12] 's/P apple/N ask/V at/I boy/N by/I eat/V ...",
  "girl/N/StanfDepSents.1/13 NaN NaN NaN 1 NaN NaN NaN ...",
  "girl/N/StanfDepSents.1/20 NaN NaN NaN NaN NaN NaN 1 ...",
  "girl/N/StanfDepSents.1/3 NaN NaN NaN NaN NaN NaN NaN ...",
  "girl/N/StanfDepSents.10/13 NaN NaN NaN NaN NaN NaN NaN ...",
  "girl/N/StanfDepSents.10/19 NaN NaN NaN NaN NaN NaN 1 ...",
  "girl/N/StanfDepSents.11/19 NaN NaN NaN NaN NaN NaN NaN ...",
  "girl/N/StanfDepSents.11/28 NaN NaN NaN NaN NaN NaN NaN ...",
  "... ... ... ... ... ... ... ... ..."]
-- [65]
#guard depShown (depRun true ["girl/N"] fullMacros) = [
  "[21,12] #T#->*:'s/P #T#->*:old/J #T#->*:the/D apple/N->*:#T# ask/V->*:#T# at/I->*:#T# boy/N->*:#T# ...",
  "girl/N/StanfDepSents.1/13 NaN NaN 1 NaN NaN 1 NaN ...",
  "girl/N/StanfDepSents.1/20 NaN NaN 1 NaN NaN NaN NaN ...",
  "girl/N/StanfDepSents.1/3 NaN NaN 1 NaN NaN NaN NaN ...",
  "girl/N/StanfDepSents.10/13 NaN NaN 1 NaN NaN NaN NaN ...",
  "girl/N/StanfDepSents.10/19 NaN NaN 1 NaN NaN NaN NaN ...",
  "girl/N/StanfDepSents.11/19 NaN NaN 1 NaN NaN NaN NaN ...",
  "girl/N/StanfDepSents.11/28 NaN NaN 1 NaN NaN NaN NaN ...",
  "... ... ... ... ... ... ... ... ..."]

end Verif.Check
