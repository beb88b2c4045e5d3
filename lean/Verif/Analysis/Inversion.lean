import Mathlib.Probability.Distributions.Gaussian.Real
import Mathlib.MeasureTheory.Integral.Pi
import Mathlib.Analysis.SpecialFunctions.Pow.Real
import Mathlib.Analysis.SpecialFunctions.Log.Basic
import Verif.UQ.Props

/-!
# Data-consistent inversion: model

`AnalysisManager::DCISolve` (src/managers/analysis/analysisManager_solve.hpp), `UQManager::KDE` (src/managers/uq/uqManager.cpp)
and `Data::importData` (src/tools/data.cpp).

Real numbers instead of floating point ones; `PI` of src/preferences.hpp:70 is π.  The responses of the samples and the random numbers of the
rejection are arguments (the sampling study is C141).  Only what the process of rank 0 does; printing is not followed.  `none`: a read out of
range, a value that is not a number, or an infinite one.
-/

namespace MrHyDE.Analysis.Inversion

open MrHyDE.UQ (variance1 rejection)

/-- A view of points: number of rows, of columns, entries (`View_Sc2`), analysisManager_solve.hpp:1029, data.cpp:360. -/
structure Pts where
  n : Nat
  dim : Nat
  val : Nat → Nat → ℝ

/-- A loop that adds, uqManager.cpp:277-284, analysisManager_solve.hpp:1105-1109. -/
noncomputable def loopSum (n : Nat) (f : Nat → ℝ) : ℝ := (List.range n).foldl (fun a k => a + f k) 0

/-- A loop that multiplies, uqManager.cpp:278-282. -/
noncomputable def loopProd (n : Nat) (f : Nat → ℝ) : ℝ := (List.range n).foldl (fun a k => a * f k) 1

/-- Column `d` of the points, uqManager.cpp:303-313. -/
def column (P : Pts) (d : Nat) : List ℝ := (List.range P.n).map fun k => P.val k d

/-- `computeVariance`, uqManager.cpp:295-316; 0 here where the code divides by zero (fewer than two points), see `defined`. -/
noncomputable def colVar (P : Pts) (d : Nat) : ℝ := (variance1 (column P d)).getD 0

/-- `sigma[d]`, uqManager.cpp:264-270. -/
noncomputable def sigma (seed : Pts) (dim d : Nat) : ℝ :=
  1.06 * Real.sqrt (colVar seed d) * (seed.n : ℝ) ^ (-1 / (4 + (dim : ℝ)))

/-- `coeff[d]`, uqManager.cpp:271. -/
noncomputable def coeff (seed : Pts) (dim d : Nat) : ℝ := 1 / Real.sqrt (2 * Real.pi * sigma seed dim d * sigma seed dim d)

/-- `cval` for seed point `k`, uqManager.cpp:278-282. -/
noncomputable def kernel (seed : Pts) (dim k : Nat) (x : Nat → ℝ) : ℝ :=
  loopProd dim fun d => coeff seed dim d *
    Real.exp (-1 * (x d - seed.val k d) * (x d - seed.val k d) / (2 * sigma seed dim d * sigma seed dim d))

/-- `density(i)` for the evaluation point `x`, uqManager.cpp:276-285. -/
noncomputable def densityAt (seed : Pts) (dim : Nat) (x : Nat → ℝ) : ℝ := loopSum seed.n (fun k => kernel seed dim k x) / (seed.n : ℝ)

/-- No read out of range and no division by zero in `KDE`, uqManager.cpp:251-290: the variances of the seed points are read for the columns of the
evaluation points (269), and a column with variance zero gives `0 * inf`. -/
def defined (seed : Pts) (dim : Nat) : Prop := 0 < seed.n ∧ dim ≤ seed.dim ∧ ∀ d < dim, colVar seed d ≠ 0

open Classical in
/-- `KDE`, uqManager.cpp:251-290. -/
noncomputable def kde (seed eval : Pts) : Option (List ℝ) :=
  if defined seed eval.dim then some ((List.range eval.n).map fun i => densityAt seed eval.dim (eval.val i)) else none

/-- `predvals`, analysisManager_solve.hpp:1026-1036: the number of columns is the length of the first row. -/
def predicted (resp : List (List ℝ)) : Option Pts :=
  match resp with
  | [] => none
  | r0 :: _ =>
    if resp.all (fun r => r0.length ≤ r.length) then some ⟨resp.length, r0.length, fun i j => (resp.getD i []).getD j 0⟩ else none

/-- `importData`, data.cpp:334-367: one row per line, the lines filled up with the zeros of a new view. -/
def importData (lines : List (List ℝ)) : Pts :=
  ⟨lines.length, lines.foldl (fun m l => max m l.length) 0, fun i j => (lines.getD i []).getD j 0⟩

/-- The settings of the sublist "DCI", analysisManager_solve.hpp:1042-1045, 1051-1052, 1061-1062, 1079-1080, 1116; `file`: the lines of the
observed data, `none` if there is no such file. -/
structure Settings where
  type : Option String
  mean : Option ℝ
  var : Option ℝ
  lo : Option ℝ
  hi : Option ℝ
  file : Option (List (List ℝ))
  reject : Bool

/-- `obsdens` for the type "Gaussian", analysisManager_solve.hpp:1051-1057. -/
noncomputable def obsGauss (m v x : ℝ) : ℝ :=
  1 / (Real.sqrt (2 * Real.pi) * Real.sqrt v) * Real.exp (-1 * (x - m) * (x - m) / (2 * v))

/-- `obsdens` for the type "uniform", analysisManager_solve.hpp:1061-1074. -/
noncomputable def obsUniform (lo hi x : ℝ) : ℝ := if x > lo ∧ x < hi then 1 / (hi - lo) else 0

open Classical in
/-- `obsdens`, analysisManager_solve.hpp:1045-1089: an unknown type leaves the zeros of the new view. -/
noncomputable def observed (o : Settings) (P : Pts) : Option (List ℝ) :=
  if o.type.getD "Gaussian" = "Gaussian" then
    if P.dim = 0 ∨ o.var.getD 1 ≤ 0 then none
    else some ((List.range P.n).map fun i => obsGauss (o.mean.getD 0) (o.var.getD 1) (P.val i 0))
  else if o.type.getD "Gaussian" = "uniform" then
    if P.dim = 0 then none else some ((List.range P.n).map fun i => obsUniform (o.lo.getD 0) (o.hi.getD 1) (P.val i 0))
  else if o.type.getD "Gaussian" = "data" then o.file.bind fun lines => kde (importData lines) P
  else some ((List.range P.n).map fun _ => 0)

/-- What is computed and written, analysisManager_solve.hpp:1091-1200. -/
structure Result where
  pred : Pts
  predDens : List ℝ
  obsDens : List ℝ
  ratio : List ℝ
  meanRatio : ℝ
  info : ℝ
  accept : List Bool

/-- The ratios, analysisManager_solve.hpp:1094-1100. -/
noncomputable def ratios (obs pred : List ℝ) : List ℝ := List.zipWith (· / ·) obs pred

/-- `meanr`, analysisManager_solve.hpp:1103-1107. -/
noncomputable def meanRatio (r : List ℝ) : ℝ := r.foldl (fun a x => a + x / (r.length : ℝ)) 0

/-- `KLdivr`, analysisManager_solve.hpp:1103-1108. -/
noncomputable def info (r : List ℝ) : ℝ := r.foldl (fun a x => a + x * Real.log (x + 1e-13) / (r.length : ℝ)) 0

/-- `DCISolve` up to the rejection, analysisManager_solve.hpp:1016-1118; `checks` are the random numbers in their order. -/
noncomputable def solve (o : Settings) (resp : List (List ℝ)) (checks : Nat → ℝ) : Option Result :=
  (predicted resp).bind fun P => (observed o P).bind fun ob => (kde P P).bind fun pr =>
    some ⟨P, pr, ob, ratios ob pr, meanRatio (ratios ob pr), info (ratios ob pr),
      rejection (ratios ob pr) ((List.range P.n).map checks)⟩

/-- Row `r` of the responses, analysisManager_solve.hpp:1130-1134, 1188-1191. -/
def row (P : Pts) (r : Nat) : List ℝ := (List.range P.dim).map (P.val r)

/-- The accepted samples in their order, analysisManager_solve.hpp:1128-1138. -/
def acceptedIdx (R : Result) : List Nat := (List.range R.ratio.length).filter fun r => R.accept.getD r false

/-- "accepted_data.dat", analysisManager_solve.hpp:1122-1140; not written without rejection. -/
def acceptedFile (o : Settings) (R : Result) : Option (List (List ℝ)) :=
  if o.reject then some ((acceptedIdx R).map (row R.pred)) else none

/-- "Acceptance rate", analysisManager_solve.hpp:1144. -/
noncomputable def rate (R : Result) : ℝ := ((acceptedIdx R).length : ℝ) / (R.ratio.length : ℝ) * 100

/-- `meanacc[j]`, analysisManager_solve.hpp:1133, 1150-1153; nothing accepted: `0 * inf`. -/
noncomputable def accMean (R : Result) (j : Nat) : Option ℝ :=
  if (acceptedIdx R).length = 0 then none
  else some ((acceptedIdx R).foldl (fun a r => a + R.pred.val r j) 0 * (1 / ((acceptedIdx R).length : ℝ)))

/-- `varacc[j]`, analysisManager_solve.hpp:1154-1164; one accepted sample: `0 / 0`; none: zero, since nothing is added. -/
noncomputable def accVar (R : Result) (j : Nat) : Option ℝ :=
  if (acceptedIdx R).length = 1 then none
  else if (acceptedIdx R).length = 0 then some 0
  else (accMean R j).map fun m => (acceptedIdx R).foldl (fun a r => a + (R.pred.val r j - m) * (R.pred.val r j - m) / ((acceptedIdx R).length - 1 : ℝ)) 0

/-- A line of "DCI_output.dat": the responses, the two densities, the decision if rejection was asked for, analysisManager_solve.hpp:1186-1198. -/
noncomputable def outputFile (o : Settings) (R : Result) : List (List ℝ × ℝ × ℝ × Option Bool) :=
  (List.range R.ratio.length).map fun r => (row R.pred r, R.predDens.getD r 0, R.obsDens.getD r 0, if o.reject then some (R.accept.getD r false) else none)

end MrHyDE.Analysis.Inversion
