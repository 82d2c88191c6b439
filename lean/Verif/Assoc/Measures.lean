import Verif.Matrix.Sparse
import Mathlib.Analysis.SpecialFunctions.Log.Basic
import Mathlib.Analysis.SpecialFunctions.Pow.Real

/-!
# Association measures: `/repo/nephosem/specutils/mxcalc.py:41-83, 204-338`

Python floats are modelled by real numbers: rounding, overflow and the final `float32` are left out.  The exceptions of
float arithmetic (`ZeroDivisionError`, the `ValueError` of `math.log` and `math.sqrt`) are kept.
-/

namespace Verif.Assoc

/-- Python exceptions raised by the modelled functions: those of float arithmetic and those of the matrix model. -/
inductive Err where
  | zeroDivision | mathDomain | py (e : Matrix.Err)
  deriving DecidableEq, Repr

noncomputable section
open Classical

/-- `x / y` on Python floats. -/
def pyDiv (x y : ℝ) : Except Err ℝ := if y = 0 then .error .zeroDivision else .ok (x / y)

/-- `math.log(x)`. -/
def pyLog (x : ℝ) : Except Err ℝ := if x ≤ 0 then .error .mathDomain else .ok (Real.log x)

/-- `math.sqrt(x)`. -/
def pySqrt (x : ℝ) : Except Err ℝ := if x < 0 then .error .mathDomain else .ok (Real.sqrt x)

/-- The two constants of `adjust_val`, taken as decimal numbers. -/
def tiny : ℝ := 1 / 10 ^ 10
def nearOne : ℝ := 1 - 1 / 10 ^ 10

/-- `adjust_val`: `mxcalc.py:331-337`. -/
def adjustVal (v : ℝ) : ℝ := if v = 0 then tiny else if v = 1 then nearOne else v

/-- A contingency table as the measure functions get it: `o11 = c_a_b`, `o21 = c_na_b`, `o12 = c_a_nb`,
`o22 = c_na_nb`. -/
structure Table where
  o11 : ℝ
  o21 : ℝ
  o12 : ℝ
  o22 : ℝ

/-- `calc_pmi`: `mxcalc.py:225-238`. -/
def calcPmi (t : Table) : Except Err ℝ := do
  let n := t.o11 + t.o21 + t.o12 + t.o22
  let e11 ← pyDiv ((t.o11 + t.o12) * (t.o11 + t.o21)) n
  let e11 := adjustVal e11
  let q ← pyDiv t.o11 e11
  pyLog (adjustVal q)

/-- `calc_ppmi`: `mxcalc.py:241-245`. -/
def calcPpmi (t : Table) : Except Err ℝ := do
  let pmi ← calcPmi t
  .ok (if pmi < 0 then 0 else pmi)

/-- `calc_lik`: `mxcalc.py:248-264`. -/
def calcLik (t : Table) : Except Err ℝ := do
  let p1 ← pyDiv t.o11 (t.o11 + t.o21)
  let p1 := adjustVal p1
  let p2 ← pyDiv t.o12 (t.o12 + t.o22)
  let p2 := adjustVal p2
  let p ← pyDiv (t.o11 + t.o12) (t.o11 + t.o12 + t.o21 + t.o22)
  let p := adjustVal p
  let l1 ← pyLog p1
  let m1 ← pyLog (1 - p1)
  let l2 ← pyLog p2
  let m2 ← pyLog (1 - p2)
  let l ← pyLog p
  let m ← pyLog (1 - p)
  .ok (2 * (t.o11 * l1 + t.o21 * m1 + t.o12 * l2 + t.o22 * m2 - t.o11 * l - t.o21 * m - t.o12 * l - t.o22 * m))

/-- `calc_chisq`: `mxcalc.py:267-274`. -/
def calcChisq (t : Table) : Except Err ℝ :=
  pyDiv ((t.o11 + t.o21 + t.o12 + t.o22) * (t.o11 * t.o22 - t.o21 * t.o12) ^ 2)
    ((t.o11 + t.o21) * (t.o11 + t.o12) * (t.o21 + t.o22) * (t.o12 + t.o22))

/-- `calc_zscore`: `mxcalc.py:277-284`. -/
def calcZscore (t : Table) : Except Err ℝ := do
  let n := t.o11 + t.o21 + t.o12 + t.o22
  let e11 ← pyDiv ((t.o11 + t.o21) * (t.o11 + t.o12)) n
  let s ← pySqrt e11
  pyDiv (t.o11 - e11) s

/-- `calc_dice`: `mxcalc.py:295-300`. -/
def calcDice (t : Table) : Except Err ℝ := pyDiv (2 * t.o11) ((t.o11 + t.o12) + (t.o11 + t.o21))

/-- `calc_deltap`: `mxcalc.py:303-306`. -/
def calcDeltap (t : Table) : Except Err ℝ := do
  let a ← pyDiv t.o11 (t.o11 + t.o12)
  let b ← pyDiv t.o21 (t.o21 + t.o22)
  .ok (a - b)

/-- `calc_deltap_coll`: `mxcalc.py:309-312`. -/
def calcDeltapColl (t : Table) : Except Err ℝ := do
  let a ← pyDiv t.o11 (t.o11 + t.o21)
  let b ← pyDiv t.o12 (t.o12 + t.o22)
  .ok (a - b)

/-- `calc_log_ratio`: `mxcalc.py:315-320`.  The conditional expression comes first: with `o21 = 0` nothing is
divided. -/
def calcLogRatio (t : Table) : Except Err ℝ := do
  let ratio ← (if t.o21 = 0 then .ok 1 else do
    let a ← pyDiv t.o11 (t.o11 + t.o12)
    let b ← pyDiv t.o21 (t.o21 + t.o22)
    pyDiv a b)
  pyLog (adjustVal ratio)

/-- The measures of `func_dict`: `mxcalc.py:170-183`. -/
inductive Meas where
  | pmi | ppmi | lik | chisq | zscore | dice | deltap | deltapColl | logratio
  deriving DecidableEq, Repr

/-- `func_dict[meas]`. -/
def Meas.func : Meas → Table → Except Err ℝ
  | .pmi => calcPmi
  | .ppmi => calcPpmi
  | .lik => calcLik
  | .chisq => calcChisq
  | .zscore => calcZscore
  | .dice => calcDice
  | .deltap => calcDeltap
  | .deltapColl => calcDeltapColl
  | .logratio => calcLogRatio

/-- The table of one cell: `mxcalc.py:188-195`. -/
def cellTable (x r c n : ℝ) : Table :=
  let ab := x
  let anb := r - ab
  let nab := c - ab
  { o11 := ab, o21 := nab, o12 := anb, o22 := n - anb - nab - ab }

/-- One cell of `compute_ppmi`: `mxcalc.py:63-76`; `x` is the frequency, `r` and `c` the marginals, `n` the total. -/
def ppmiCell (positive : Bool) (x r c n : ℝ) : Except Err ℝ := do
  let data := x * n
  let e11 := r * c
  let q := if e11 > 0 then data / e11 else 0
  let pmi ← pyLog (if q ≠ 0 then q else 1)
  .ok (if positive then (if pmi < 0 then 0 else pmi) else pmi)

end

end Verif.Assoc
