import Verif.Modules.Elasticity
import Verif.Modules.Loops
import Mathlib.LinearAlgebra.Matrix.NonsingularInverse
import Mathlib.LinearAlgebra.Matrix.Determinant.Basic
import Mathlib.LinearAlgebra.Matrix.Trace
import Mathlib.Analysis.SpecialFunctions.Log.Basic
import Mathlib.Analysis.SpecialFunctions.Sqrt

/-!
# The neo-Hookean module (C145) and the stress measures written to the output (C146)

`neohookean` solves the equilibrium of a compressible neo-Hookean body in its reference configuration: stored energy
`W = mu/2 (tr(F^T F) - 3) + lambda/2 (ln J)^2 - mu ln J`, first Piola-Kirchhoff stress
`P = mu F + (lambda ln J - mu) F^{-T}`, deformation gradient `F = I + grad u`, `J = det F`.

`linearelasticity`, `elastodynamics` and `neohookean` report "VM stress" and "MAG stress" as derived quantities.
-/

set_option linter.unusedSectionVars false

namespace MrHyDE.Modules.NeoHookean

open MrHyDE.Modules

/-! ## Model -/

/-- The entries of the deformation gradient, src/physics/neohookean.cpp:824, 848-851 and 893-901; `g i j` is the
derivative of displacement component `i` in direction `j`. -/
def defo (g : Nat → Nat → ℝ) (i j : Nat) : ℝ := if i = j then 1 + g i j else g i j

/-- `cof00` ... `cof22`, src/physics/neohookean.cpp:906-914 (three dimensions). -/
def cof3 (f : Nat → Nat → ℝ) (i j : Nat) : ℝ :=
  if i = 0 then
    if j = 0 then f 1 1 * f 2 2 - f 1 2 * f 2 1
    else if j = 1 then f 1 2 * f 2 0 - f 1 0 * f 2 2
    else f 1 0 * f 2 1 - f 1 1 * f 2 0
  else if i = 1 then
    if j = 0 then f 0 2 * f 2 1 - f 0 1 * f 2 2
    else if j = 1 then f 0 0 * f 2 2 - f 0 2 * f 2 0
    else f 0 1 * f 2 0 - f 0 0 * f 2 1
  else
    if j = 0 then f 0 1 * f 1 2 - f 0 2 * f 1 1
    else if j = 1 then f 0 2 * f 1 0 - f 0 0 * f 1 2
    else f 0 0 * f 1 1 - f 0 1 * f 1 0

/-- The factors of `coeff` in two dimensions, as they are in src/physics/neohookean.cpp:865-868 (the comments on
lines 860-862, 866 and 867 name others). -/
def cof2 (f : Nat → Nat → ℝ) (i j : Nat) : ℝ :=
  if i = 0 then if j = 0 then f 1 1 else - f 0 1 else if j = 0 then - f 1 0 else f 0 0

/-- `J`, src/physics/neohookean.cpp:825, 854 and 917. -/
def jac (dim : Nat) (f : Nat → Nat → ℝ) : ℝ :=
  if dim = 1 then f 0 0
  else if dim = 2 then f 0 0 * f 1 1 - f 0 1 * f 1 0
  else f 0 0 * cof3 f 0 0 + f 0 1 * cof3 f 0 1 + f 0 2 * cof3 f 0 2

/-- `coeff`, src/physics/neohookean.cpp:858 and 923 (in one dimension, line 827, the division by `F11` is in line
828). -/
noncomputable def coeff (dim : Nat) (lam mu : ℝ) (f : Nat → Nat → ℝ) : ℝ :=
  (lam * Real.log (jac dim f) - mu) / jac dim f

/-- The entries of `stress`, src/physics/neohookean.cpp:828, 865-868 and 926-934. -/
noncomputable def entry (dim : Nat) (lam mu : ℝ) (g : Nat → Nat → ℝ) (i j : Nat) : ℝ :=
  let f := defo g
  if dim = 1 then mu * f 0 0 + (lam * Real.log (jac 1 f) - mu) / f 0 0
  else if dim = 2 then mu * f i j + coeff 2 lam mu f * cof2 f i j
  else mu * f i j + coeff 3 lam mu f * cof3 f i j

/-- `computeStress` at one point, src/physics/neohookean.cpp:805-937 (the same expressions in the volume and on
sides); `none` when the volume ratio is not positive: the logarithm of line 826, 855 or 918 is then no number. -/
noncomputable def computeStress (dim : Nat) (lam mu : ℝ) (g : Nat → Nat → ℝ) : Option (Nat → Nat → ℝ) :=
  if 0 < jac dim (defo g) then some (entry dim lam mu g) else none

/-- `volumeResidual` on one element once the stress is known at the points, src/physics/neohookean.cpp:95-243: line
for line the loops of `linearelasticity` (lines 135, 154, 172, 195, 216 and 237), points outside in one and two
dimensions, basis functions outside in three. -/
noncomputable def volumeResidual (dim : Nat) (ndof : Nat → Nat) (off : Nat → Nat → Nat)
    (pts : List (Elasticity.Pt ℝ × (Nat → Nat → ℝ))) (res : Nat → ℝ) : Nat → ℝ :=
  Elasticity.volumeResidual dim ndof off pts res

/-- The traction of row `i`, src/physics/neohookean.cpp:333, 385, 433, 487, 535 and 583 (there with a minus sign),
660, 691-692, 741, 752 and 763. -/
def rowDot (dim : Nat) (s : Nat → Nat → ℝ) (n : Nat → ℝ) (i : Nat) : ℝ :=
  if dim = 1 then s i 0 * n 0
  else if dim = 2 then s i 0 * n 0 + s i 1 * n 1
  else s i 0 * n 0 + s i 1 * n 1 + s i 2 * n 2

/-- What the boundary terms of component `i` add for basis function `d` at one point of a side,
src/physics/neohookean.cpp:313-352, 365-404, 413-452, 467-506, 515-554 and 563-602; `pen` is the setting "penalty",
`h` the element size. -/
noncomputable def sideAdds (dim i : Nat) (cond : Elasticity.Cond) (pen h : ℝ)
    (q : Elasticity.SidePt ℝ × (Nat → Nat → ℝ)) (d : Nat) : List ℝ :=
  let p := q.1
  let weight := pen * (p.lambda + 2 * p.mu) / h
  match cond with
  | .neumann => [(- p.traction i * p.basis i d) * p.wts]
  | .weakDirichlet => [(- rowDot dim q.2 p.n i * p.basis i d + weight * (p.u i - p.given i) * p.basis i d) * p.wts]
  | .interface => [(- rowDot dim q.2 p.n i * p.basis i d + weight * (p.u i - p.aux i) * p.basis i d) * p.wts]
  | .dirichlet => []

/-- `boundaryResidual` on one side, src/physics/neohookean.cpp:251-606: one nest per component. -/
noncomputable def boundaryResidual (dim : Nat) (ndof : Nat → Nat) (off : Nat → Nat → Nat)
    (cs : Nat → Elasticity.Cond) (pen h : ℝ) (pts : List (Elasticity.SidePt ℝ × (Nat → Nat → ℝ)))
    (res : Nat → ℝ) : Nat → ℝ :=
  runLoops off pts ((List.range dim).map fun i =>
    { eq := i, ndof := ndof i, adds := sideAdds dim i (cs i) pen h }) res

/-- The displacement `computeFlux` compares with, src/physics/neohookean.cpp:647-653, 670-683 and 707-732: not
assigned (`none`) on a side with a traction condition. -/
def fluxSource (cond : Elasticity.Cond) (p : Elasticity.SidePt ℝ) (i : Nat) : Option ℝ :=
  match cond with
  | .interface => some (p.aux i)
  | .weakDirichlet => some (p.given i)
  | .dirichlet => some (p.given i)
  | .neumann => none

/-- `computeFlux` for component `i` at one point, src/physics/neohookean.cpp:613-769; `old` is the content of the
array of fluxes before.  In three dimensions the flux of a component without a source is left alone (lines 714, 723
and 732); in one and two dimensions the unassigned source is read (`none`: undefined). -/
noncomputable def computeFlux (dim i : Nat) (cond : Elasticity.Cond) (pen h : ℝ)
    (q : Elasticity.SidePt ℝ × (Nat → Nat → ℝ)) (old : ℝ) : Option ℝ :=
  match fluxSource cond q.1 i with
  | some a => some (1 * rowDot dim q.2 q.1.n i + pen / h * (q.1.lambda + 2 * q.1.mu) * (a - q.1.u i))
  | none => if dim = 3 then some old else none

/-! ### Derived quantities -/

/-- "VM stress" of a stress, src/physics/linearelasticity.cpp:1326, 1339 and 1355, src/physics/elastodynamics.cpp:1442,
1455 and 1471, src/physics/neohookean.cpp:981, 1012 and 1054. -/
noncomputable def vonMises (dim : Nat) (s : Nat → Nat → ℝ) : ℝ :=
  if dim = 1 then √(s 0 0 * s 0 0)
  else if dim = 2 then √(s 0 0 * s 0 0 - s 0 0 * s 1 1 + s 1 1 * s 1 1 + 3 * s 0 1 * s 0 1)
  else √(0.5 * ((s 0 0 - s 1 1) * (s 0 0 - s 1 1) + (s 1 1 - s 2 2) * (s 1 1 - s 2 2)
    + (s 2 2 - s 0 0) * (s 2 2 - s 0 0)) + 3 * (s 0 1 * s 0 1 + s 1 2 * s 1 2 + s 2 0 * s 2 0))

/-- "MAG stress" of a stress, src/physics/linearelasticity.cpp:1327, 1340 and 1356,
src/physics/elastodynamics.cpp:1443, 1456 and 1472, src/physics/neohookean.cpp:982, 1013 and 1055. -/
noncomputable def magnitude (dim : Nat) (s : Nat → Nat → ℝ) : ℝ :=
  if dim = 1 then √(s 0 0 * s 0 0)
  else if dim = 2 then √(s 0 0 * s 0 0 + s 1 1 * s 1 1)
  else √(s 0 0 * s 0 0 + s 1 1 * s 1 1 + s 2 2 * s 2 2)

/-- The stress `getDerivedValues` of `neohookean` passes to the two formulas: the Cauchy stress `P F^T / J`,
src/physics/neohookean.cpp:977-980, 995-1010 and 1031-1052.  In two dimensions the entry (0,1) is the mean of
`sxy` and `syx`; in three dimensions the code computes `sxy`, `syz` and `sxz` only, the last of which stands at the
place (2,0) of the formula.  `none` when `computeStress` is. -/
noncomputable def cauchy (dim : Nat) (lam mu : ℝ) (g : Nat → Nat → ℝ) : Option (Nat → Nat → ℝ) :=
  (computeStress dim lam mu g).map fun P =>
    let f := defo g
    if dim = 1 then fun _ _ => P 0 0 * f 0 0 / f 0 0
    else if dim = 2 then
      let inv := 1 / jac 2 f
      let sg := fun i j => inv * (P i 0 * f j 0 + P i 1 * f j 1)
      fun i j => if i = j then sg i i else 0.5 * (sg 0 1 + sg 1 0)
    else
      let inv := 1 / (f 0 0 * (f 1 1 * f 2 2 - f 1 2 * f 2 1) - f 0 1 * (f 1 0 * f 2 2 - f 1 2 * f 2 0)
        + f 0 2 * (f 1 0 * f 2 1 - f 1 1 * f 2 0))
      let sg := fun i j => inv * (P i 0 * f j 0 + P i 1 * f j 1 + P i 2 * f j 2)
      fun i j => if i ≤ j then sg i j else sg j i

/-- `getDerivedNames`, src/physics/linearelasticity.cpp:1295-1300, src/physics/elastodynamics.cpp:1411-1416,
src/physics/neohookean.cpp:944-949. -/
def derivedNames : List String := ["VM stress", "MAG stress"]

/-- `getDerivedValues` of `linearelasticity` and `elastodynamics` at one point, for the stress computed there,
src/physics/linearelasticity.cpp:1306-1365, src/physics/elastodynamics.cpp:1422-1481. -/
noncomputable def derivedValues (dim : Nat) (s : Nat → Nat → ℝ) : List ℝ := [vonMises dim s, magnitude dim s]

/-- `getDerivedValues` of `neohookean` at one point, src/physics/neohookean.cpp:958-1064. -/
noncomputable def derivedNH (dim : Nat) (lam mu : ℝ) (g : Nat → Nat → ℝ) : Option (List ℝ) :=
  (cauchy dim lam mu g).map (derivedValues dim)

/-! ## Specification -/

/-- The leading block of an array as a matrix.  [specification, no code] -/
def mat (n : Nat) (s : Nat → Nat → ℝ) : Matrix (Fin n) (Fin n) ℝ := Matrix.of fun i j => s i j

/-- The deformation gradient `I + grad u`.  [specification, no code] -/
def F (n : Nat) (g : Nat → Nat → ℝ) : Matrix (Fin n) (Fin n) ℝ := 1 + mat n g

/-- The first Piola-Kirchhoff stress as documented.  [specification, no code] -/
noncomputable def piola (n : Nat) (lam mu : ℝ) (A : Matrix (Fin n) (Fin n) ℝ) : Matrix (Fin n) (Fin n) ℝ :=
  mu • A + (lam * Real.log A.det - mu) • (A⁻¹).transpose

/-- The stored energy as documented.  [specification, no code] -/
noncomputable def energy (n : Nat) (lam mu : ℝ) (A : Matrix (Fin n) (Fin n) ℝ) : ℝ :=
  mu / 2 * ((A.transpose * A).trace - 3) + lam / 2 * Real.log A.det ^ 2 - mu * Real.log A.det

/-- A rotation.  [specification, no code] -/
def Rotation {n : Nat} (Q : Matrix (Fin n) (Fin n) ℝ) : Prop := Q.transpose * Q = 1 ∧ Q.det = 1

/-- The deviator of a stress in space.  [specification, no code] -/
noncomputable def deviator (S : Matrix (Fin 3) (Fin 3) ℝ) : Matrix (Fin 3) (Fin 3) ℝ := S - (S.trace / 3) • 1

/-- The von Mises stress: `sqrt(3/2 s:s)` of the deviator `s`.  [specification, no code] -/
noncomputable def mises (S : Matrix (Fin 3) (Fin 3) ℝ) : ℝ :=
  √(3 / 2 * ((deviator S).transpose * deviator S).trace)

/-- The Frobenius norm.  [specification, no code] -/
noncomputable def frob {n : Nat} (S : Matrix (Fin n) (Fin n) ℝ) : ℝ := √((S.transpose * S).trace)

end MrHyDE.Modules.NeoHookean
