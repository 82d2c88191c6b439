import Verif.Check.Tutorial

/-!
# The formulas against recorded outputs of the code

Association measures, token vectors and distances of the model are about real numbers and cannot be evaluated.  Here their formulas
are written down once more for floating point numbers, line by line after the definitions cited, and evaluated on the matrices that the
model gives for the corpus of the tutorial.  `#guard` compares the results with the numbers shown in
`/repo/docs/tutorials/all-in-one.ipynb`, up to the digits shown there.  These are tests of the formulas, not proofs.
-/

namespace Verif.Check
open Verif.Py Verif.Matrix
open Verif.Vocab.Plain (Str)

/-- A dense matrix of floating point numbers. -/
structure FM where
  rows : List Str
  cols : List Str
  elem : Array (Array Float)

/-- One element. -/
def FM.at (m : FM) (i j : Nat) : Float := (m.elem.getD i #[]).getD j 0

/-- The element of two items. -/
def FM.of (m : FM) (r c : String) : Float := m.at (m.rows.idxOf r.toList) (m.cols.idxOf c.toList)

/-- A matrix of the model. -/
def floats (m : Mtx Str Int) : FM :=
  { rows := m.rows, cols := m.cols
    elem := match m.body with
      | .sp s => ((List.range s.nr).map (fun i => ((List.range s.nc).map (fun j => Float.ofInt (s.val i j))).toArray)).toArray
      | .dn d => ((List.range d.nr).map (fun i => ((List.range d.nc).map (fun j => Float.ofInt (d.elem i j))).toArray)).toArray }

/-- The sum of some numbers. -/
def total (n : Nat) (f : Nat → Float) : Float := (List.range n).foldl (fun a j => a + f j) 0

/-- A matrix given by its elements. -/
def FM.build (rows cols : List Str) (f : Nat → Nat → Float) : FM :=
  { rows := rows, cols := cols, elem := ((List.range rows.length).map (fun i => ((List.range cols.length).map (f i)).toArray)).toArray }

/-- `Verif.Assoc.adjustVal`. -/
def adjust (v : Float) : Float := if v == 0 then 1e-10 else if v == 1 then 1 - 1e-10 else v

/-- `Verif.Assoc.calcPmi` with `Verif.Assoc.cellTable`. -/
def pmi (x r c n : Float) : Float :=
  let o11 := x
  let o12 := r - o11
  let o21 := c - o11
  let o22 := n - o12 - o21 - o11
  let n := o11 + o21 + o12 + o22
  let e11 := adjust ((o11 + o12) * (o11 + o21) / n)
  Float.log (adjust (o11 / e11))

/-- The matrix of co-occurrences. -/
def freqM : FM := (coo.map floats).getD ⟨[], [], #[]⟩
/-- The row sums; the matrix has the same items in rows and columns. -/
def rowSum (k : Str) : Float := let i := freqM.rows.idxOf k; total freqM.cols.length (fun j => freqM.at i j)
/-- The column sums. -/
def colSum (k : Str) : Float := let j := freqM.cols.idxOf k; total freqM.rows.length (fun i => freqM.at i j)
/-- The frequencies of the rows, [49]. -/
def nfreq : Array Float := (freqM.rows.map rowSum).toArray
/-- The frequencies of the columns, [49]. -/
def cfreq : Array Float := (freqM.cols.map colSum).toArray
/-- `N`. -/
def grand : Float := max (total nfreq.size (nfreq.getD · 0)) (total cfreq.size (cfreq.getD · 0))

/-- `compute_association(freqMTX, meas='pmi')`: stored elements only. -/
def pmiM : FM := FM.build freqM.rows freqM.cols (fun i j => if freqM.at i j == 0 then 0 else pmi (freqM.at i j) (nfreq.getD i 0) (cfreq.getD j 0) grand)
/-- `meas='ppmi'`, [49]. -/
def ppmiM : FM := FM.build freqM.rows freqM.cols (fun i j => if pmiM.at i j < 0 then 0 else pmiM.at i j)

/-- Two numbers agree up to so much. -/
def near (eps a b : Float) : Bool := (a - b).abs ≤ eps

/-- All numbers of a table agree with those shown. -/
def agree (eps : Float) (a b : List (List Float)) : Bool :=
  a.length == b.length && (a.zip b).all (fun r => r.1.length == r.2.length && (r.1.zip r.2).all (fun x => near eps x.1 x.2))

-- [49]
#guard agree 5e-7 [[ppmiM.of ",/," ",/,", ppmiM.of ",/," "a/D"]] [[2.0384464, 1.2940059]]
-- [51]
#guard agree 5e-7 [["'s/P", ",/,", "a/D", "about/I", "about/R", "all/P", "an/D"].map (pmiM.of "the/D")]
  [[0.030027887, -0.611826, -0.43997574, -0.15229367, 0.030027887, 0.25317144, -1.0685844]]
-- [68]
#guard agree 5e-7 [tokShown.2.map (ppmiM.of "girl/N")] [[0.3507146, 0.6383967, 0.12757105, 0.0, 1.0438617, 0.6383967, 0.23293155]]
-- [72]
#guard agree 5e-7 [["a/D", "about/I", "all/P", "an/D"].map (ppmiM.of "boy/N"), [ppmiM.of "this/D" ",/,"], ["a/D", "an/D"].map (ppmiM.of "give/V")]
  [[0.07956182, 0.59038746, 0.99585253, 0.772709], [2.9034438], [0.65492594, 0.94260806]]

/-- The tokens. -/
def tokM : FM := ((tokRun 4).map floats).getD ⟨[], [], #[]⟩
/-- `compute_token_weights`: `Verif.Assoc.weightElem`, for tokens of `girl/N` only, [69]. -/
def weighted : FM := FM.build tokM.rows tokM.cols (fun i j =>
  (if tokM.at i j == 0 then 0 else 1) * ppmiM.at (freqM.rows.idxOf "girl/N".toList) (freqM.cols.idxOf (tokM.cols.getD j [])))
/-- The second-order matrix, [72]. -/
def soc : FM := FM.build tokM.cols freqM.cols (fun i j => ppmiM.at (freqM.rows.idxOf (tokM.cols.getD i [])) j)
/-- `Verif.Assoc.weightedMean`. -/
def mean : FM := FM.build tokM.rows freqM.cols (fun i k =>
  let x := total tokM.cols.length (fun j => weighted.at i j * soc.at j k)
  let y := total tokM.cols.length (fun j => weighted.at i j)
  if y == 0 then 0 else x / y)
/-- `Verif.Assoc.normalize`, [73]. -/
def vectors : FM := FM.build tokM.rows freqM.cols (fun i k =>
  let n := total freqM.cols.length (fun k => (mean.at i k).abs)
  if n == 0 then mean.at i k else mean.at i k / n)
/-- `Verif.Assoc.rowDot`. -/
def dot (m : FM) (a b : Nat) : Float := total m.cols.length (fun j => m.at a j * m.at b j)
/-- `Verif.Assoc.cosDistElem`. -/
def cosDist (m : FM) (r s : String) : Float :=
  let a := m.rows.idxOf r.toList
  let b := m.rows.idxOf s.toList
  if a == b then 0
  else
    let c := if dot m a a == 0 || dot m b b == 0 then 0 else dot m a b / (Float.sqrt (dot m a a) * Float.sqrt (dot m b b))
    min (max (1 - c) 0) 2

-- [73]; NaN is shown for elements that are not stored
#guard agree 5.1e-5 (tokShown.1.map (fun t => ["'s/P", ",/,", "a/D", "about/I", "about/R", "all/P", "an/D"].map (vectors.of t))) [
  [0.0008, 0, 0, 0, 0.0008, 0.0066, 0],
  [0.0119, 0, 0.0041, 0.0118, 0.2003, 0.0035, 0.0130],
  [0.1028, 0.0279, 0.0251, 0, 0.0006, 0.0048, 0],
  [0.0110, 0, 0.0117, 0.0088, 0.0110, 0.0032, 0.0220],
  [0.0533, 0.1544, 0.0130, 0, 0.0003, 0.0025, 0],
  [0.0141, 0.0302, 0.0197, 0.0113, 0.0141, 0.0283, 0.0412],
  [0.0145, 0, 0.0050, 0.1741, 0.0179, 0.0042, 0.0158]]
-- [77]
#guard agree 5.1e-5 (tokShown.1.map (fun t => tokShown.1.map (cosDist vectors t))) [
  [0.0000, 0.8721, 0.8736, 0.8654, 0.8920, 0.7566, 0.8227],
  [0.8721, 0.0000, 0.9064, 0.8111, 0.8930, 0.7274, 0.6725],
  [0.8736, 0.9064, 0.0000, 0.8789, 0.3427, 0.6394, 0.8348],
  [0.8654, 0.8111, 0.8789, 0.0000, 0.8652, 0.4694, 0.7922],
  [0.8920, 0.8930, 0.3427, 0.8652, 0.0000, 0.5428, 0.8596],
  [0.7566, 0.7274, 0.6394, 0.4694, 0.5428, 0.0000, 0.6970],
  [0.8227, 0.6725, 0.8348, 0.7922, 0.8596, 0.6970, 0.0000]]
-- [80]
#guard agree 5.1e-5 (tokShown.2.map (fun t => tokShown.2.map (cosDist soc t))) [
  [0.0000, 0.9714, 0.9932, 0.9494, 0.9750, 0.9251, 0.5509],
  [0.9714, 0.0000, 0.9934, 0.8941, 0.9592, 0.9578, 0.9752],
  [0.9932, 0.9934, 0.0000, 0.7166, 0.9929, 0.9878, 0.9968],
  [0.9494, 0.8941, 0.7166, 0.0000, 0.9954, 0.8361, 0.7142],
  [0.9750, 0.9592, 0.9929, 0.9954, 0.0000, 0.9594, 0.9838],
  [0.9251, 0.9578, 0.9878, 0.8361, 0.9594, 0.0000, 0.9780],
  [0.5509, 0.9752, 0.9968, 0.7142, 0.9838, 0.9780, 0.0000]]

end Verif.Check
